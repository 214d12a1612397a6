import Verif.Proof.Limit
import Verif.Proof.IdentityDrop
/-!
# A limit that is not reached has no effect, also where futures are dropped (C123)
-/

namespace Mqrstt
open Mqrstt.Spec

namespace LimitDrop
open Limit

/-- as `IdentDrop.history`, as long as no call is refused for size -/
theorem history {S O : Type} (step : S → O → Option (S × List Obs)) (I : S → Prop) (R : S → S → Prop) (h : Obs → Obs)
    (c : ∀ s s' o, I s → R s s' → (∀ t ob, step s o = some (t, ob) → NoneTooLarge ob) → (step s o = none ∧ step s' o = none) ∨
      ∃ x x', step s o = some x ∧ step s' o = some x' ∧ R x.1 x'.1 ∧ x'.2 = x.2.map h)
    (pres : ∀ s o s' ob, I s → step s o = some (s', ob) → I s') (s s' : S) (hs : I s) (hr : R s s') (ops : List O)
    (hn : NoneTooLarge (Mqrstt.history step s ops).2) :
    (Mqrstt.history step s' ops).2 = (Mqrstt.history step s ops).2.map h := by
  induction ops generalizing s s' with
  | nil => rfl
  | cons o ops ih =>
    simp only [Mqrstt.history] at hn ⊢
    have hf : ∀ t ob, step s o = some (t, ob) → NoneTooLarge ob := by
      intro t ob e q id n hm
      rw [e] at hn
      exact hn q id n (List.mem_append_left _ hm)
    rcases c s s' o hs hr hf with ⟨e, e'⟩ | ⟨x, x', e, e', hx, ho⟩
    · rw [e] at hn
      simp only [e, e']
      exact ih s s' hs hr hn
    · rw [e] at hn
      simp only [e, e', ho, List.map_append]
      rw [ih x.1 x'.1 (pres _ _ _ _ hs e) hx fun q id n hm => hn q id n (List.mem_append_right _ hm)]

variable (o o' : Options)

/-! ## tokio -/

theorem tk_dropConnect (s : Tokio) (h : ∃ b, s.options.connectPacket.asyncWrite = .ok b)
    (h' : ∃ b, o'.connectPacket.asyncWrite = .ok b) (i : TokioConnect) (d : ConnectDropAt) :
    (tk o' s).dropConnect i d = tr o' (s.dropConnect i d) := by
  have w := Ident.tokio_writePacket h true
  have w' : Tokio.writePacket (tk o' s).options.connectPacket true = _ :=
    Ident.tokio_writePacket (Ident.async_keepAlive s.options.keepAlive h') true
  have k : i.times.ok (tk o' s).now = i.times.ok s.now := rfl
  have e : (tk o' s).sys.alive = s.sys.alive := rfl
  have r : (tk o' s).run.isNone = s.run.isNone := rfl
  have c : ∀ a b, asIf o' (.wrote s.options.connectPacket a b) = .wrote (tk o' s).options.connectPacket a b :=
    Ident.asIf_connect o' s.options
  have nt : ∀ c : ConnAck, Tokio.noteConnAck ⟨(tk o' s).sys, (tk o' s).options, (tk o' s).perform, (tk o' s).lastAction,
      (tk o' s).network, (tk o' s).run, i.times.second⟩ c i.times.fire =
        tk o' (({ s with now := i.times.second } : Tokio).noteConnAck c i.times.fire) := fun _ => rfl
  unfold Tokio.dropConnect
  dsimp only
  rw [k, e, r, w, w']
  split
  · split
    · rfl
    · split
      · rename_i written
        rw [← c]
        cases written <;> simp [tk, tr]
      · split
        · split
          · rename_i c' _ _ _
            rw [nt, ← c]
            generalize ({ s with now := i.times.second } : Tokio).noteConnAck c' i.times.fire = t
            rw [show (tk o' t).sys = big o'.maximumPacketSize t.sys from rfl, Limit.step_other _ _ (.connAck c') nofun]
            cases hs : t.sys.step (.connAck c') with
            | none => rfl
            | some x =>
              obtain ⟨sys, e⟩ := x
              rcases Sys.step_connAck_event hs with ⟨ps, rfl⟩ | rfl | ⟨er, rfl⟩ | rfl
              · simp [br, tk, tr]
              · rfl
              · rfl
              · rfl
          · rfl
        · rfl
      · split
        · split
          · rename_i n _ c' _ _ _
            rw [nt, ← c]
            generalize ({ s with now := i.times.second } : Tokio).noteConnAck c' i.times.fire = t
            rw [show (tk o' t).sys = big o'.maximumPacketSize t.sys from rfl, Limit.step_other _ _ (.connAck c') nofun]
            cases hs : t.sys.step (.connAck c') with
            | none => rfl
            | some x =>
              obtain ⟨sys, e⟩ := x
              rcases Sys.step_connAck_event hs with ⟨ps, rfl⟩ | rfl | ⟨er, rfl⟩ | rfl
              · have hw := Ident.tk_writePackets o' i.resendOk i.times 0 (ps.take n)
                  fun p hp => Ident.again_ne hs p (List.mem_of_mem_take (i := n) hp)
                simp [br, tk, tr, hw]
              · rfl
              · rfl
              · rfl
          · rfl
        · rfl
  · rfl

/-- alike but for the configuration and the bytes written -/
def TwAlike (r r' : Option (TokioWire × List Obs)) : Prop :=
  (r = none ∧ r' = none) ∨
    ∃ x x', r = some x ∧ r' = some x' ∧ x'.1.net = tk o' x.1.net ∧ x'.2 = x.2.map (asIf o')

theorem tw_none : TwAlike o' none none := .inl ⟨rfl, rfl⟩

theorem tw_some {s s' : TokioWire} {ob : List Obs} (h : s'.net = tk o' s.net) (hob : ob.map (asIf o') = ob) :
    TwAlike o' (some (s, ob)) (some (s', ob)) := .inr ⟨_, _, rfl, rfl, h, hob.symm⟩

theorem tw_cut (s s' : TokioWire) (h : s'.net = tk o' s.net) (p : Packet) (k : Nat) (ob : List Obs) (hob : ob.map (asIf o') = ob) :
    TwAlike o' (s.cut p k ob) (s'.cut p k ob) := by
  unfold TokioWire.cut
  split
  · exact tw_some o' (by simp only [h]; rfl) (by simp [hob])
  · exact tw_none o'

theorem tw_dropRead (s s' : TokioWire) (h : s'.net = tk o' s.net) (c : TokioConn) (d : DropAt) :
    TwAlike o' (s.dropRead c d) (s'.dropRead c d) := by
  unfold TokioWire.dropRead
  split
  · rename_i p rest _
    dsimp only
    have e : s'.net.sys = big o'.maximumPacketSize s.net.sys := by rw [h]; rfl
    rw [e]
    split
    · split
      · exact tw_some o' (by simp only [h]; rfl) (by simp)
      · exact tw_none o'
    · split
      · exact tw_some o' (by simp only [h]; rfl) (by simp)
      · exact tw_none o'
    · rw [Limit.step_other _ _ (.receive p) nofun]
      cases hs : s.net.sys.step (.receive p) with
      | none => exact tw_none o'
      | some x =>
        obtain ⟨sys, e⟩ := x
        rcases Sys.step_receive_event hs with ⟨reply, shown, rfl⟩ | ⟨er, rfl⟩ | rfl
        · simp only [br, Option.map_some]
          split
          · split
            · exact tw_some o' (by simp only [h]; rfl) (by simp)
            · exact tw_none o'
          · exact tw_cut o' _ _ (by simp only [h]; rfl) _ _ _ (by split <;> simp)
          · exact tw_none o'
        · exact tw_none o'
        · exact tw_none o'
  · exact tw_none o'

theorem tw_dropOutgoing (s s' : TokioWire) (h : s'.net = tk o' s.net) (d : DropAt) :
    TwAlike o' (s.dropOutgoing d) (s'.dropOutgoing d) := by
  unfold TokioWire.dropOutgoing
  have e : s'.net.sys = big o'.maximumPacketSize s.net.sys := by rw [h]; rfl
  have q : s'.net.sys.queue = s.net.sys.queue := by rw [h]; rfl
  rw [q, e, Limit.step_other _ _ (.write false) nofun]
  split
  · cases hs : s.net.sys.step (.write false) with
    | none => exact tw_none o'
    | some x => exact tw_cut o' _ _ (by simp only [h]; rfl) _ _ _ rfl
  · exact tw_none o'

theorem tw_dropTimer (s s' : TokioWire) (h : s'.net = tk o' s.net) (await : Option Nat) (d : DropAt) (T : Times) :
    TwAlike o' (s.dropTimer await d T) (s'.dropTimer await d T) := by
  unfold TokioWire.dropTimer
  have e : s'.net.sleepOver await T = s.net.sleepOver await T := by rw [h]; rfl
  have p : s'.net.perform = s.net.perform := by rw [h]; rfl
  rw [e, p]
  split
  · split
    · split
      · exact tw_cut o' _ _ h _ _ _ rfl
      · exact tw_none o'
    · exact tw_cut o' _ _ h _ _ _ rfl
    · exact tw_none o'
  · exact tw_none o'

theorem tw_drop (s s' : TokioWire) (h : s'.net = tk o' s.net) (r : TokioBranch) (d : DropAt) (lost : Nat) (T : Times) :
    TwAlike o' (s.drop r d lost T) (s'.drop r d lost T) := by
  have hrun : s'.net.run = s.net.run := by rw [h]; rfl
  have hnet : s'.net.network = s.net.network := by rw [h]; rfl
  have k : s'.net.now = s.net.now := by rw [h]; rfl
  have e : s'.net.sys.alive = s.net.sys.alive := by rw [h]; rfl
  unfold TokioWire.drop
  rw [hrun, hnet, k, e]
  split
  · split
    · cases r with
      | read => exact tw_dropRead o' _ _ (by simp only [h]; rfl) _ d
      | readError => exact tw_none o'
      | outgoing =>
        dsimp only
        split
        · exact tw_dropOutgoing o' _ _ (by simp only [h]; rfl) d
        · exact tw_none o'
      | timer =>
        dsimp only
        split
        · refine tw_dropTimer o' _ _ ?_ _ d T
          simp only [h]; rfl
        · exact tw_none o'
    · exact tw_none o'
  · exact tw_none o'

theorem tw_step (h : ∃ b, o.connectPacket.asyncWrite = .ok b) (h' : ∃ b, o'.connectPacket.asyncWrite = .ok b)
    (s s' : TokioWire) (op : TokioWireOp) (hs : TokioOf o o' s.net) (hn : s'.net = tk o' s.net)
    (hf : ∀ t ob, s.step op = some (t, ob) → NoneTooLarge ob) : TwAlike o' (s.step op) (s'.step op) := by
  cases op with
  | op op =>
    have := tk_step o o' h h' s.net op hs (by
      intro t ob e
      exact hf ⟨t, TokioWire.advance s.wire op ob⟩ ob (by simp only [TokioWire.step, e]))
    simp only [TokioWire.step]
    rw [hn, this]
    cases s.net.step op with
    | none => exact tw_none o'
    | some x => exact .inr ⟨_, _, rfl, rfl, rfl, rfl⟩
  | drop r d lost T => exact tw_drop o' s s' hn r d lost T
  | dropConnect i d =>
    obtain ⟨k, hk⟩ := hs.of.2
    have := tk_dropConnect o' s.net (by rw [hk]; exact Ident.async_keepAlive k h) h' i d
    simp only [TokioWire.step]
    rw [hn, this]
    cases s.net.dropConnect i d with
    | none => exact tw_none o'
    | some x => exact .inr ⟨_, _, rfl, rfl, rfl, rfl⟩

theorem tw_drop_limit {s s' : TokioWire} {r : TokioBranch} {d : DropAt} {lost : Nat} {T : Times} {ob : List Obs}
    (h : s.drop r d lost T = some (s', ob)) : s'.net.sys.maxPacketSize = s.net.sys.maxPacketSize := by
  unfold TokioWire.drop TokioWire.dropRead TokioWire.dropOutgoing TokioWire.dropTimer at h
  dsimp only at h
  repeat' split at h
  all_goals first
    | (simp at h; done)
    | exact (congrArg Sys.maxPacketSize (IdentDrop.tw_cut_sys h)).trans (by first | rfl | (apply Limit.step_limit; assumption))
    | (simp only [Option.some.injEq, Prod.mk.injEq] at h; obtain ⟨rfl, -⟩ := h; first | rfl | (apply Limit.step_limit; assumption))

theorem tk_dropConnect_limit {s s' : Tokio} {i : TokioConnect} {d : ConnectDropAt} {ob : List Obs}
    (h : s.dropConnect i d = some (s', ob)) : s'.sys.maxPacketSize = s.sys.maxPacketSize := by
  have hn : ∀ (c : ConnAck) (t : Tokio), (t.noteConnAck c i.times.fire).sys = t.sys := fun _ _ => rfl
  unfold Tokio.dropConnect at h
  dsimp only at h
  repeat' split at h
  all_goals first
    | (simp at h; done)
    | (simp only [Option.some.injEq, Prod.mk.injEq] at h; obtain ⟨rfl, -⟩ := h
       first | rfl | (rename_i hs; rw [hn] at hs; exact Limit.step_limit hs))

theorem twOf_step (s : TokioWire) (op : TokioWireOp) (s' : TokioWire) (ob : List Obs) (h : TokioOf o o' s.net)
    (hs : s.step op = some (s', ob)) : TokioOf o o' s'.net := by
  refine ⟨IdentDrop.twOf_step o s op s' ob h.of hs, Nat.le_trans (Nat.le_of_eq ?_) h.limit⟩
  cases op with
  | op op =>
    simp only [TokioWire.step] at hs
    split at hs
    · rename_i e
      simp only [Option.some.injEq, Prod.mk.injEq] at hs
      rw [← hs.1]
      exact vstep_limit (v := s.net.view) (Tokio.step_vstep e)
    · simp at hs
  | drop r d lost T => exact tw_drop_limit hs
  | dropConnect i d =>
    simp only [TokioWire.step] at hs
    split at hs
    · rename_i e
      simp only [Option.some.injEq, Prod.mk.injEq] at hs
      rw [← hs.1]
      exact tk_dropConnect_limit e
    · simp at hs

theorem tokioWire (hm : Roomier o o') (h : ∃ b, o.connectPacket.asyncWrite = .ok b)
    (h' : ∃ b, o'.connectPacket.asyncWrite = .ok b) (t : Nat) (ops : List TokioWireOp)
    (hn : NoneTooLarge (Mqrstt.history TokioWire.step (TokioWire.new o t) ops).2) :
    (Mqrstt.history TokioWire.step (TokioWire.new o' t) ops).2 =
      (Mqrstt.history TokioWire.step (TokioWire.new o t) ops).2.map (asIf o') := by
  refine LimitDrop.history TokioWire.step (fun s => TokioOf o o' s.net) (fun s s' => s'.net = tk o' s.net) (asIf o')
    (fun s s' op hs hr hf => tw_step o o' h h' s s' op hs hr hf) (twOf_step o o') (TokioWire.new o t) (TokioWire.new o' t)
    ⟨⟨.new o, o.keepAlive, rfl⟩, hm.limit⟩ ?_ ops hn
  unfold TokioWire.new Tokio.new tk
  simp only
  rw [roomier_sys hm]
  simp only [hm.keepAlive]

/-! ## smol -/

theorem sm_dropConnect (s : Smol) (h : ∃ b, s.options.connectPacket.write = .ok b) (h' : ∃ b, o'.connectPacket.write = .ok b)
    (hk : s.options.keepAlive = o'.keepAlive) (i : SmolConnect) (d : ConnectDropAt) :
    (sm o' s).dropConnect i d = sr o' (s.dropConnect i d) := by
  have w := Ident.smol_writePacket h true
  have w' : Smol.writePacket (sm o' s).options.connectPacket true = _ := Ident.smol_writePacket h' true
  have k : i.times.ok (sm o' s).now = i.times.ok s.now := rfl
  have e : (sm o' s).sys.alive = s.sys.alive := rfl
  have r : (sm o' s).running = s.running := rfl
  have q : (sm o' s).checks = s.checks := rfl
  have c : ∀ a b, asIf o' (.wrote s.options.connectPacket a b) = .wrote (sm o' s).options.connectPacket a b := by
    intro a b
    rw [Ident.asIf_connect, hk]
    rfl
  have nt : ∀ c : ConnAck, Smol.noteConnAck ⟨s.checks, (sm o' s).sys, (sm o' s).options, (sm o' s).keepAlive, (sm o' s).perform,
      (sm o' s).lastAction, (sm o' s).await, (sm o' s).outgoing, (sm o' s).network, s.running, i.times.second⟩ c i.times.fire =
        sm o' (({ s with now := i.times.second } : Smol).noteConnAck c i.times.fire) := fun _ => rfl
  unfold Smol.dropConnect
  dsimp only
  rw [k, e, r, q, w, w']
  split
  · split
    · rfl
    · split
      · rename_i written
        rw [← c]
        cases written <;> simp [sm, sr]
      all_goals
        split
        · split
          · rename_i c' _ _ _
            rw [nt, ← c]
            generalize ({ s with now := i.times.second } : Smol).noteConnAck c' i.times.fire = t
            rw [show (sm o' t).sys = big o'.maximumPacketSize t.sys from rfl, Limit.step_other _ _ (.connAck c') nofun]
            cases hs : t.sys.step (.connAck c') with
            | none => rfl
            | some x =>
              obtain ⟨sys, e⟩ := x
              rcases Sys.step_connAck_event hs with ⟨ps, rfl⟩ | rfl | ⟨er, rfl⟩ | rfl
              · simp [br, sm, sr]
              · rfl
              · rfl
              · rfl
          · rfl
        · rfl
  · rfl

/-- alike but for the configuration and the bytes written -/
def SwAlike (r r' : Option (SmolWire × List Obs)) : Prop :=
  (r = none ∧ r' = none) ∨
    ∃ x x', r = some x ∧ r' = some x' ∧ (x'.1.net = sm o' x.1.net ∧ x'.1.buffer = x.1.buffer) ∧ x'.2 = x.2.map (asIf o')

theorem sw_none : SwAlike o' none none := .inl ⟨rfl, rfl⟩

theorem sw_some {s s' : SmolWire} {ob : List Obs} (h : s'.net = sm o' s.net) (hb : s'.buffer = s.buffer)
    (hob : ob.map (asIf o') = ob) : SwAlike o' (some (s, ob)) (some (s', ob)) := .inr ⟨_, _, rfl, rfl, ⟨h, hb⟩, hob.symm⟩

theorem sw_cut (s s' : SmolWire) (h : s'.net = sm o' s.net) (hb : s'.buffer = s.buffer) (ps : List Packet) (k : Nat) (ob : List Obs)
    (hob : ob.map (asIf o') = ob) : SwAlike o' (s.cut ps k ob) (s'.cut ps k ob) := by
  unfold SmolWire.cut
  dsimp only
  rw [hb]
  split
  · exact sw_some o' (by simp only [h]; rfl) rfl (by simp [hob])
  · exact sw_none o'

theorem sw_dropRead (s s' : SmolWire) (h : s'.net = sm o' s.net) (hb : s'.buffer = s.buffer) (buffer chunk : Bytes) (d : DropAt) :
    SwAlike o' (s.dropRead buffer chunk d) (s'.dropRead buffer chunk d) := by
  unfold SmolWire.dropRead
  have e : s'.net.sys = big o'.maximumPacketSize s.net.sys := by rw [h]; rfl
  have c : s'.net.checks = s.net.checks := by rw [h]; rfl
  have g : s'.net.outgoing = s.net.outgoing := by rw [h]; rfl
  rw [c]
  dsimp only
  rw [e, g]
  split
  · exact sw_none o'
  · split
    · rename_i p rest _
      split
      · split
        · exact sw_some o' (by simp only [h]; rfl) hb (by simp)
        · refine sw_cut o' _ _ ?_ ?_ _ _ _ (by simp)
          · simp only [h]; rfl
          · exact hb
      · split
        · exact sw_some o' (by simp only [h]; rfl) hb (by simp)
        · exact sw_none o'
      · rw [Limit.step_other _ _ (.receive p) nofun]
        cases hs : s.net.sys.step (.receive p) with
        | none => exact sw_none o'
        | some x =>
          obtain ⟨sys, e⟩ := x
          rcases Sys.step_receive_event hs with ⟨reply, shown, rfl⟩ | ⟨er, rfl⟩ | rfl
          · simp only [br, Option.map_some]
            split
            · split
              · exact sw_some o' (by simp only [h]; rfl) hb (by simp)
              · exact sw_none o'
            · refine sw_cut o' _ _ ?_ ?_ _ _ _ (by split <;> simp)
              · simp only [h]; rfl
              · exact hb
          · exact sw_none o'
          · exact sw_none o'
    · exact sw_none o'

theorem sw_dropOutgoing (s s' : SmolWire) (h : s'.net = sm o' s.net) (hb : s'.buffer = s.buffer) (d : DropAt) :
    SwAlike o' (s.dropOutgoing d) (s'.dropOutgoing d) := by
  unfold SmolWire.dropOutgoing
  have e : s'.net.sys = big o'.maximumPacketSize s.net.sys := by rw [h]; rfl
  have q : s'.net.sys.queue = s.net.sys.queue := by rw [h]; rfl
  rw [q, e, Limit.step_other _ _ (.write false) nofun]
  split
  · cases hs : s.net.sys.step (.write false) with
    | none => exact sw_none o'
    | some x =>
      refine sw_cut o' _ _ ?_ ?_ _ _ _ rfl
      · simp only [h]; rfl
      · exact hb
  · exact sw_none o'

theorem sw_dropTimer (s s' : SmolWire) (h : s'.net = sm o' s.net) (hb : s'.buffer = s.buffer) (d : DropAt) (T : Times) :
    SwAlike o' (s.dropTimer d T) (s'.dropTimer d T) := by
  unfold SmolWire.dropTimer
  have e : s'.net.sleepOver T = s.net.sleepOver T := by rw [h]; rfl
  have p : s'.net.perform = s.net.perform := by rw [h]; rfl
  have a : s'.net.await = s.net.await := by rw [h]; rfl
  rw [e, p, a]
  split
  · split
    · split
      · exact sw_cut o' _ _ h hb _ _ _ rfl
      · exact sw_cut o' _ _ h hb _ _ _ rfl
    · exact sw_none o'
  · exact sw_none o'

theorem sw_drop (s s' : SmolWire) (h : s'.net = sm o' s.net) (hb : s'.buffer = s.buffer) (r : SmolBranch) (d : DropAt) (T : Times) :
    SwAlike o' (s.drop r d T) (s'.drop r d T) := by
  have hrun : s'.net.running = s.net.running := by rw [h]; rfl
  have hnet : s'.net.network = s.net.network := by rw [h]; rfl
  have k : s'.net.now = s.net.now := by rw [h]; rfl
  have e : s'.net.sys.alive = s.net.sys.alive := by rw [h]; rfl
  unfold SmolWire.drop
  rw [hrun, hnet, k, e]
  split
  · split
    · cases r with
      | read chunk =>
        refine sw_dropRead o' _ _ ?_ ?_ _ chunk d
        · simp only [h]; rfl
        · exact hb
      | readError => exact sw_none o'
      | outgoing =>
        refine sw_dropOutgoing o' _ _ ?_ ?_ d
        · simp only [h]; rfl
        · exact hb
      | timer =>
        refine sw_dropTimer o' _ _ ?_ ?_ d T
        · simp only [h]; rfl
        · exact hb
    · exact sw_none o'
  · exact sw_none o'

theorem sw_step (hk : o.keepAlive = o'.keepAlive) (h : ∃ b, o.connectPacket.write = .ok b) (h' : ∃ b, o'.connectPacket.write = .ok b)
    (s s' : SmolWire) (op : SmolWireOp) (hs : SmolOf o o' s.net) (hn : s'.net = sm o' s.net) (hb : s'.buffer = s.buffer)
    (hf : ∀ t ob, s.step op = some (t, ob) → NoneTooLarge ob) : SwAlike o' (s.step op) (s'.step op) := by
  cases op with
  | op op =>
    have := sm_step o o' hk h h' s.net op hs (by
      intro t ob e
      exact hf _ ob (by simp only [SmolWire.step, e]; rfl))
    simp only [SmolWire.step]
    rw [hn, this, hb]
    cases s.net.step op with
    | none => exact sw_none o'
    | some x => exact .inr ⟨_, _, rfl, rfl, ⟨rfl, IdentDrop.advance_asIf o' _ _ _ _ _⟩, rfl⟩
  | drop r d T => exact sw_drop o' s s' hn hb r d T
  | dropConnect i d =>
    have := sm_dropConnect o' s.net (by rw [hs.of.options]; exact h) h' (by rw [hs.of.options]; exact hk) i d
    simp only [SmolWire.step]
    rw [hn, this]
    cases s.net.dropConnect i d with
    | none => exact sw_none o'
    | some x => exact .inr ⟨_, _, rfl, rfl, ⟨rfl, hb⟩, rfl⟩

theorem sw_drop_limit {s s' : SmolWire} {r : SmolBranch} {d : DropAt} {T : Times} {ob : List Obs}
    (h : s.drop r d T = some (s', ob)) : s'.net.sys.maxPacketSize = s.net.sys.maxPacketSize := by
  unfold SmolWire.drop SmolWire.dropRead SmolWire.dropOutgoing SmolWire.dropTimer at h
  dsimp only at h
  repeat' split at h
  all_goals first
    | (simp at h; done)
    | exact (congrArg Sys.maxPacketSize (IdentDrop.sw_cut_sys h)).trans (by first | rfl | (apply Limit.step_limit; assumption))
    | (simp only [Option.some.injEq, Prod.mk.injEq] at h; obtain ⟨rfl, -⟩ := h; first | rfl | (apply Limit.step_limit; assumption))

theorem sm_dropConnect_limit {s s' : Smol} {i : SmolConnect} {d : ConnectDropAt} {ob : List Obs}
    (h : s.dropConnect i d = some (s', ob)) : s'.sys.maxPacketSize = s.sys.maxPacketSize := by
  have hn : ∀ (c : ConnAck) (t : Smol), (t.noteConnAck c i.times.fire).sys = t.sys := fun _ _ => rfl
  unfold Smol.dropConnect at h
  dsimp only at h
  repeat' split at h
  all_goals first
    | (simp at h; done)
    | (simp only [Option.some.injEq, Prod.mk.injEq] at h; obtain ⟨rfl, -⟩ := h
       first | rfl | (rename_i hs; rw [hn] at hs; exact Limit.step_limit hs))

theorem swOf_step (s : SmolWire) (op : SmolWireOp) (s' : SmolWire) (ob : List Obs) (h : SmolOf o o' s.net)
    (hs : s.step op = some (s', ob)) : SmolOf o o' s'.net := by
  refine ⟨IdentDrop.swOf_step o s op s' ob h.of hs, Nat.le_trans (Nat.le_of_eq ?_) h.limit⟩
  cases op with
  | op op =>
    simp only [SmolWire.step] at hs
    split at hs
    · rename_i e
      simp only [Option.some.injEq, Prod.mk.injEq] at hs
      rw [← hs.1]
      exact vstep_limit (v := s.net.view) (Smol.step_vstep h.of.good e).1
    · simp at hs
  | drop r d T => exact sw_drop_limit hs
  | dropConnect i d =>
    simp only [SmolWire.step] at hs
    split at hs
    · rename_i e
      simp only [Option.some.injEq, Prod.mk.injEq] at hs
      rw [← hs.1]
      exact sm_dropConnect_limit e
    · simp at hs

theorem smolWire (checks : Bool) (hm : Roomier o o') (h : ∃ b, o.connectPacket.write = .ok b)
    (h' : ∃ b, o'.connectPacket.write = .ok b) (t : Nat) (ops : List SmolWireOp)
    (hn : NoneTooLarge (Mqrstt.history SmolWire.step (SmolWire.new checks o t) ops).2) :
    (Mqrstt.history SmolWire.step (SmolWire.new checks o' t) ops).2 =
      (Mqrstt.history SmolWire.step (SmolWire.new checks o t) ops).2.map (asIf o') := by
  refine LimitDrop.history SmolWire.step (fun s => SmolOf o o' s.net) (fun s s' => s'.net = sm o' s.net ∧ s'.buffer = s.buffer)
    (asIf o') (fun s s' op hs hr hf => sw_step o o' hm.keepAlive h h' s s' op hs hr.1 hr.2 hf) (swOf_step o o')
    (SmolWire.new checks o t) (SmolWire.new checks o' t)
    ⟨⟨.new o, ⟨rfl, by simp [SmolWire.new, Smol.new]⟩, rfl⟩, hm.limit⟩ ⟨?_, rfl⟩ ops hn
  unfold SmolWire.new Smol.new sm
  simp only
  rw [roomier_sys hm, hm.keepAlive]

end LimitDrop
end Mqrstt
