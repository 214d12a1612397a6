import Verif.Spec.Limit
import Verif.Proof.Identity
/-!
# A limit that is not reached has no effect (C123)
-/

namespace Mqrstt
open Mqrstt.Spec

namespace Limit

/-- the event is not a refusal for size -/
def Fits (e : Event) : Prop := ∀ q id n, e ≠ .rejected q id (.validation (.maxPacketSize n))

def big (m : Nat) (s : Sys) : Sys := { s with maxPacketSize := m }

def br (m : Nat) (r : Option (Sys × Event)) : Option (Sys × Event) := r.map fun r => (big m r.1, r.2)

theorem validate_big {p : Packet} {k m : Nat} (hk : k ≤ m) (h : ∀ n, p.validate k ≠ .error (.maxPacketSize n)) :
    p.validate m = p.validate k := by
  cases p <;> simp only [Packet.validate] at h ⊢
  case publish p =>
    unfold Publish.validate at h ⊢
    by_cases hs : p.wireLen > k
    · exact absurd (by rw [if_pos hs]) (h p.wireLen)
    · rw [if_neg hs, if_neg (by omega)]
  case subscribe p =>
    unfold Subscribe.validate at h ⊢
    by_cases hs : p.wireLen > k
    · exact absurd (by rw [if_pos hs]) (h p.wireLen)
    · rw [if_neg hs, if_neg (by omega)]
  case unsubscribe p =>
    unfold Unsubscribe.validate at h ⊢
    by_cases hs : p.wireLen > k
    · exact absurd (by rw [if_pos hs]) (h p.wireLen)
    · rw [if_neg hs, if_neg (by omega)]

theorem callWith_big {s : Sys} {m : Nat} (hm : s.maxPacketSize ≤ m) (q : Request) (id : Option UInt16)
    (h : ∀ s' e, s.callWith q id = some (s', e) → Fits e) : (big m s).callWith q id = br m (s.callWith q id) := by
  unfold Sys.callWith at h ⊢
  cases hp : q.packet id with
  | none => rfl
  | some p =>
    simp only [hp] at h ⊢
    have hv : p.validate (big m s).maxPacketSize = p.validate s.maxPacketSize := by
      refine validate_big hm fun n hn => ?_
      rw [hn] at h
      exact h _ _ rfl _ _ _ rfl
    rw [hv]
    have ha : (big m s).alive = s.alive := rfl
    split
    · rfl
    · rw [ha]
      split <;> rfl

theorem call_big {s : Sys} {m : Nat} (hm : s.maxPacketSize ≤ m) (q : Request)
    (h : ∀ s' e, s.call q = some (s', e) → Fits e) : (big m s).call q = br m (s.call q) := by
  unfold Sys.call at h ⊢
  have hp : (big m s).pool = s.pool := rfl
  have ha : (big m s).alive = s.alive := rfl
  rw [hp, ha]
  split
  · rfl
  · rename_i hc
    rw [if_neg hc] at h
    split
    · rename_i ht
      rw [if_pos ht] at h
      split
      · rename_i id pool e
        rw [e] at h
        exact callWith_big (s := s.withPool pool) hm q (some id) h
      · split <;> rfl
    · rename_i ht
      rw [if_neg ht] at h
      exact callWith_big hm q none h

theorem step_other (s : Sys) (m : Nat) (op : Op) (h : ∀ q, op ≠ .call q) : (big m s).step op = br m (s.step op) := by
  cases op with
  | call q => exact absurd rfl (h q)
  | submit k =>
    simp only [Sys.step]
    rw [show (big m s).pending = s.pending from rfl, show (big m s).alive = s.alive from rfl, show (big m s).queue = s.queue from rfl]
    split
    · rfl
    · split
      · split <;> rfl
      · rfl
  | abandon k =>
    simp only [Sys.step]
    rw [show (big m s).pending = s.pending from rfl]
    split <;> rfl
  | dropClients => rfl
  | dropNetwork =>
    simp only [Sys.step]
    rw [show (big m s).alive = s.alive from rfl]
    split <;> rfl
  | write ok =>
    simp only [Sys.step]
    rw [show (big m s).alive = s.alive from rfl, show (big m s).queue = s.queue from rfl, show (big m s).handler = s.handler from rfl]
    split
    · split
      · rfl
      · split
        · split <;> rfl
        · rfl
    · rfl
  | receive p =>
    simp only [Sys.step]
    rw [show (big m s).alive = s.alive from rfl, show (big m s).handler = s.handler from rfl]
    split
    · split <;> rfl
    · rfl
  | connAck c =>
    simp only [Sys.step]
    rw [show (big m s).alive = s.alive from rfl, show (big m s).handler = s.handler from rfl]
    split
    · split <;> rfl
    · rfl

theorem step_big {s : Sys} {m : Nat} (hm : s.maxPacketSize ≤ m) (op : Op) (h : ∀ s' e, s.step op = some (s', e) → Fits e) :
    (big m s).step op = br m (s.step op) := by
  cases op with
  | call q => exact call_big hm q h
  | _ => exact step_other s m _ nofun

theorem step_limit {s s' : Sys} {op : Op} {e : Event} (h : s.step op = some (s', e)) : s'.maxPacketSize = s.maxPacketSize := by
  cases op with
  | call q =>
    rcases Props.call_cases h with ⟨t, id', ht, hw⟩ | ⟨rfl, -, -⟩
    · have hpq : t.maxPacketSize = s.maxPacketSize := by
        cases ht <;> (rename_i ht; subst ht; rfl)
      obtain ⟨p', -, ⟨-, rfl, -⟩ | ⟨rfl, -⟩⟩ := Props.callWith_cases hw <;> exact hpq
    · rfl
  | _ =>
    simp only [Sys.step] at h
    repeat' split at h
    all_goals first
      | (simp only [Option.some.injEq, Prod.mk.injEq] at h; obtain ⟨rfl, -⟩ := h; rfl)
      | simp at h

theorem roomier_sys {o o' : Options} (h : Roomier o o') : o'.sys = big o'.maximumPacketSize o.sys := by
  unfold Options.sys Options.sendMaximum Options.receiveMaximum
  rw [h.cleanStart, h.receiveMax, h.sendMax]
  rfl

/-! ## tokio -/

variable (o o' : Options)

/-- `s` with the other configuration, apart from the keep-alive time -/
def tk (s : Tokio) : Tokio :=
  { s with options := { o' with keepAlive := s.options.keepAlive }, sys := big o'.maximumPacketSize s.sys }

def tr (r : Option (Tokio × List Obs)) : Option (Tokio × List Obs) := r.map fun r => (tk o' r.1, r.2.map (asIf o'))

theorem tk_finish (s : Tokio) (ob : List Obs) (e : End) :
    some ((tk o' s).finish (ob.map (asIf o')) e) = tr o' (some (s.finish ob e)) := by
  simp [Tokio.finish, tk, tr]

theorem tk_onPacket (s : Tokio) (p : Packet) (io : Bool) (T : Times) : (tk o' s).onPacket p io T = tr o' (s.onPacket p io T) := by
  unfold Tokio.onPacket
  split
  · simp [tk, tr]
  · simp [Tokio.finish, tk, tr]
  · rw [show (tk o' s).sys = big o'.maximumPacketSize s.sys from rfl, step_other _ _ (.receive p) nofun]
    cases hs : s.sys.step (.receive p) with
    | none => rfl
    | some x =>
      obtain ⟨sys, e⟩ := x
      rcases Sys.step_receive_event hs with ⟨reply, shown, rfl⟩ | ⟨er, rfl⟩ | rfl
      · cases reply with
        | none => cases shown <;> simp [br, tk, tr]
        | some r =>
          have hr := Ident.asIf_wrote (o' := o') (Ident.reply_ne hs) T.fire T.first
          cases h : Tokio.writePacket r io <;> cases shown <;> simp [br, h, Tokio.finish, tk, tr, hr]
      · simp [br, Tokio.finish, tk, tr]
      · simp [br, Tokio.finish, tk, tr]

theorem tk_onRead (s : Tokio) (c : TokioConn) (io : Bool) (T : Times) : (tk o' s).onRead c io T = tr o' (s.onRead c io T) := by
  unfold Tokio.onRead
  split
  · rename_i p rest _
    exact tk_onPacket o' { s with network := some { c with input := rest } } p io T
  · exact tk_finish o' s [] _
  · split
    · exact tk_finish o' s [] _
    · rfl
  · exact tk_finish o' { s with sys := s.sys.die } [] _

theorem tk_onOutgoing (s : Tokio) (hc : Ident.Clear s.sys) (io : Bool) (T : Times) :
    (tk o' s).onOutgoing io T = tr o' (s.onOutgoing io T) := by
  unfold Tokio.onOutgoing
  rw [show (tk o' s).sys.queue = s.sys.queue from rfl, show (tk o' s).sys.pool = s.sys.pool from rfl]
  split
  · split
    · exact tk_finish o' s [] _
    · rfl
  · rename_i p rest hq
    have hw := Ident.asIf_wrote (o' := o') (hc.head hq) T.fire T.first
    rw [show (tk o' s).sys = big o'.maximumPacketSize s.sys from rfl, step_other _ _ (.write false) nofun, step_other _ _ (.write true) nofun]
    split
    · cases hs : s.sys.step (.write false) with
      | none => rfl
      | some x => exact tk_finish o' { s with sys := x.1 } [] _
    · cases hs : s.sys.step (.write true) with
      | none => rfl
      | some x =>
        obtain ⟨sys, e⟩ := x
        obtain ⟨q, rest', hq', ⟨-, rfl | ⟨er, rfl⟩ | rfl⟩ | ⟨h, -⟩⟩ := Sys.step_write_event hs
        · simp only [br, Option.map_some]
          split <;> simp [Tokio.finish, tk, tr, hw]
        · simp [br, Tokio.finish, tk, tr, hw]
        · simp [br, Tokio.finish, tk, tr, hw]
        · simp at h

theorem tk_onTimer (s : Tokio) (await : Option Nat) (io : Bool) (T : Times) : (tk o' s).onTimer await io T = tr o' (s.onTimer await io T) := by
  unfold Tokio.onTimer
  have e : (tk o' s).sleepOver await T = s.sleepOver await T := rfl
  have p : (tk o' s).perform = s.perform := rfl
  rw [e, p]
  split
  · cases await with
    | none =>
      dsimp only
      split
      · split <;> simp [Tokio.finish, tk, tr]
      · rfl
    | some t =>
      dsimp only
      split <;> simp [Tokio.finish, tk, tr]
  · rfl

theorem tk_turn (s : Tokio) (hc : Ident.Clear s.sys) (b : TokioBranch) (lost : Nat) (io : Bool) (T : Times) :
    (tk o' s).turn b lost io T = tr o' (s.turn b lost io T) := by
  cases hr : s.run with
  | none => simp [Tokio.turn, tk, hr, tr]
  | some a =>
    cases hn : s.network with
    | none => simp [Tokio.turn, tk, hr, hn, tr]
    | some c =>
      have r : (tk o' s).run = some a := hr
      have n : (tk o' s).network = some c := hn
      have k : T.ok (tk o' s).now = T.ok s.now := rfl
      have e : (tk o' s).sys.alive = s.sys.alive := rfl
      unfold Tokio.turn
      rw [r, n, hr, hn]
      dsimp only
      rw [k, e]
      split
      · cases b with
        | read => exact tk_onRead o' { s with now := T.second, run := some a, network := some c } c io T
        | readError => exact tk_finish o' { s with now := T.second, run := some a, network := some c } [] (.error .io)
        | outgoing =>
          dsimp only
          split
          · exact tk_onOutgoing o' { s with now := T.second, run := some a, network := some { c with input := c.input.drop lost } } hc io T
          · rfl
        | timer =>
          dsimp only
          split
          · exact tk_onTimer o' { s with now := T.second, run := some a, network := some { c with input := c.input.drop lost } } a io T
          · rfl
      · rfl

theorem tk_established (s : Tokio) (c : ConnAck) (rest : Bytes) (i : TokioConnect) (ob : List Obs) :
    (tk o' s).established c rest i (ob.map (asIf o')) = tr o' (s.established c rest i ob) := by
  have n : (tk o' s).noteConnAck c i.times.fire = tk o' (s.noteConnAck c i.times.fire) := rfl
  unfold Tokio.established
  dsimp only
  rw [n]
  generalize s.noteConnAck c i.times.fire = t
  rw [show (tk o' t).sys = big o'.maximumPacketSize t.sys from rfl, step_other _ _ (.connAck c) nofun]
  cases hs : t.sys.step (.connAck c) with
  | none => rfl
  | some x =>
    obtain ⟨sys, e⟩ := x
    rcases Sys.step_connAck_event hs with ⟨ps, rfl⟩ | rfl | ⟨er, rfl⟩ | rfl
    · have hw := Ident.tk_writePackets o' i.resendOk i.times 0 ps (Ident.again_ne hs)
      simp only [br, Option.map_some]
      split <;> simp [tk, tr, hw]
    · rfl
    · simp [br, tk, tr]
    · simp [br, tk, tr]

theorem tk_connect (s : Tokio) (h : ∃ b, s.options.connectPacket.asyncWrite = .ok b)
    (h' : ∃ b, o'.connectPacket.asyncWrite = .ok b) (i : TokioConnect) : (tk o' s).connect i = tr o' (s.connect i) := by
  have w := Ident.tokio_writePacket h i.connectOk
  have w' : Tokio.writePacket (tk o' s).options.connectPacket i.connectOk = _ :=
    Ident.tokio_writePacket (Ident.async_keepAlive s.options.keepAlive h') i.connectOk
  unfold Tokio.connect
  dsimp only
  have k : i.times.ok (tk o' s).now = i.times.ok s.now := rfl
  have e : (tk o' s).sys.alive = s.sys.alive := rfl
  have r : (tk o' s).run.isNone = s.run.isNone := rfl
  rw [k, e, r, w, w']
  have c : ∀ a b, asIf o' (.wrote s.options.connectPacket a b) = .wrote (tk o' s).options.connectPacket a b := Ident.asIf_connect o' s.options
  split
  · split
    · simp [tk, tr]
    · split
      · split
        · rename_i c' _ _ _
          rw [← c]
          exact tk_established o' { s with now := i.times.second } _ _ i
            [.wrote s.options.connectPacket i.times.enter i.times.fire, .read (.connAck c')]
        · rw [← c]; simp [tk, tr]
      · rw [← c]; simp [tk, tr]
      · rw [← c]; simp [tk, tr]
      · split
        · rw [← c]; simp [tk, tr]
        · rfl
      · rw [← c]; simp [tk, tr, big, Sys.die]
  · rfl

/-- between two steps -/
structure TokioOf (s : Tokio) : Prop where
  of : Ident.TokioOf o s
  limit : s.sys.maxPacketSize ≤ o'.maximumPacketSize

theorem tk_step (h : ∃ b, o.connectPacket.asyncWrite = .ok b) (h' : ∃ b, o'.connectPacket.asyncWrite = .ok b)
    (s : Tokio) (op : TokioOp) (hs : TokioOf o o' s) (hf : ∀ s' ob, s.step op = some (s', ob) → NoneTooLarge ob) :
    (tk o' s).step op = tr o' (s.step op) := by
  have a : (tk o' s).sys.alive = s.sys.alive := rfl
  have r : (tk o' s).run = s.run := rfl
  have n : (tk o' s).network = s.network := rfl
  cases op with
  | client op =>
    simp only [Tokio.step] at hf ⊢
    split
    · rename_i hc
      rw [if_pos hc] at hf
      rw [show (tk o' s).sys = big o'.maximumPacketSize s.sys from rfl, step_big hs.limit op]
      · cases hx : s.sys.step op with
        | none => rfl
        | some x => simp [br, tk, tr]
      · intro s' e hx q id n he
        rw [hx] at hf
        subst he
        exact hf _ _ rfl q id n (by simp)
    · rfl
  | dropNetwork =>
    simp only [Tokio.step]
    rw [r, show (tk o' s).sys = big o'.maximumPacketSize s.sys from rfl, step_other _ _ (.dropNetwork) nofun]
    split
    · cases hx : s.sys.step .dropNetwork with
      | none => rfl
      | some x => simp [br, tk, tr]
    · rfl
  | connect i =>
    refine tk_connect o' s ?_ h' i
    obtain ⟨k, hk⟩ := hs.of.2
    rw [hk]
    exact Ident.async_keepAlive k h
  | start =>
    simp only [Tokio.step]
    rw [a, r, n]
    split
    · split <;> simp [tk, tr]
    · rfl
  | arrive bs =>
    simp only [Tokio.step]
    rw [n]
    split
    · split <;> simp [tk, tr]
    · rfl
  | close =>
    simp only [Tokio.step]
    rw [n]
    split
    · simp [tk, tr]
    · rfl
  | turn b lost io T => exact tk_turn o' s hs.of.1 b lost io T
  | cancel lost =>
    cases hr : s.run with
    | none => simp [Tokio.step, tk, hr, tr]
    | some a =>
      cases hn : s.network with
      | none => simp [Tokio.step, tk, hr, hn, tr]
      | some c =>
        simp only [Tokio.step, tk, hr, hn]
        split <;> simp [tr, tk]

theorem vstep_limit {fl : Flavor} {v w : View} {ob : List Obs} (h : VStep fl v ob w) : w.sys.maxPacketSize = v.sys.maxPacketSize := by
  cases h <;> first
    | rfl
    | (rename_i hs; exact step_limit hs)
    | (rename_i hs _; exact step_limit hs)
    | (rename_i hs _ _; exact step_limit hs)

theorem tokioOf_step (s : Tokio) (op : TokioOp) (s' : Tokio) (ob : List Obs) (h : TokioOf o o' s) (hs : s.step op = some (s', ob)) :
    TokioOf o o' s' :=
  ⟨Ident.tokioOf_step o s op s' ob h.of hs,
    Nat.le_trans (Nat.le_of_eq (vstep_limit (v := s.view) (w := s'.view) (Tokio.step_vstep hs))) h.limit⟩

theorem history {S O : Type} (step : S → O → Option (S × List Obs)) (I : S → Prop) (f : S → S) (g : Obs → Obs)
    (c : ∀ s op, I s → (∀ s' ob, step s op = some (s', ob) → NoneTooLarge ob) → step (f s) op = (step s op).map fun r => (f r.1, r.2.map g))
    (pres : ∀ s op s' ob, I s → step s op = some (s', ob) → I s') (s : S) (hs : I s) (ops : List O)
    (hn : NoneTooLarge (Mqrstt.history step s ops).2) :
    Mqrstt.history step (f s) ops = (f (Mqrstt.history step s ops).1, (Mqrstt.history step s ops).2.map g) := by
  induction ops generalizing s with
  | nil => rfl
  | cons op ops ih =>
    simp only [Mqrstt.history] at hn ⊢
    have hf : ∀ s' ob, step s op = some (s', ob) → NoneTooLarge ob := by
      intro s' ob e q id n hm
      rw [e] at hn
      exact hn q id n (List.mem_append_left _ hm)
    rw [c s op hs hf]
    cases e : step s op with
    | none =>
      rw [e] at hn
      exact ih s hs hn
    | some r =>
      rw [e] at hn
      have := ih r.1 (pres s op r.1 r.2 hs e) fun q id n hm => hn q id n (List.mem_append_right _ hm)
      simp only [Option.map_some, this, List.map_append]

/-! ## smol -/

def sm (s : Smol) : Smol := { s with options := o', sys := big o'.maximumPacketSize s.sys }

def sr (r : Option (Smol × List Obs)) : Option (Smol × List Obs) := r.map fun r => (sm o' r.1, r.2.map (asIf o'))

theorem sm_finish (s : Smol) (ob : List Obs) (e : End) :
    some ((sm o' s).finish (ob.map (asIf o')) e) = sr o' (some (s.finish ob e)) := by
  simp [Smol.finish, sm, sr]

theorem sm_flush (s : Smol) (hg : ∀ p ∈ s.outgoing, ∀ c, p ≠ .connect c) (ob : List Obs) (io : Bool) (T : Times) :
    some ((sm o' s).flushOutgoing (ob.map (asIf o')) io T) = sr o' (some (s.flushOutgoing ob io T)) := by
  unfold Smol.flushOutgoing
  have e : (sm o' s).outgoing = s.outgoing := rfl
  rw [e]
  split
  · have : s.outgoing.map (fun p => asIf o' (.wrote p T.fire T.first)) = s.outgoing.map fun p => .wrote p T.fire T.first :=
      List.map_congr_left fun p hp => Ident.asIf_wrote (hg p hp) _ _
    simp [sm, sr, this, Function.comp_def]
  · exact sm_finish o' s ob _

theorem sm_onPacket (s : Smol) (hg : s.outgoing = []) (p : Packet) (io : Bool) (T : Times) :
    (sm o' s).onPacket p io T = sr o' (s.onPacket p io T) := by
  unfold Smol.onPacket
  split
  · exact sm_flush o' { s with await := none } (by simp [hg]) [.read _, .delivered _] io T
  · simp [Smol.finish, sm, sr]
  · rw [show (sm o' s).sys = big o'.maximumPacketSize s.sys from rfl, step_other _ _ (.receive p) nofun]
    cases hs : s.sys.step (.receive p) with
    | none => rfl
    | some x =>
      obtain ⟨sys, e⟩ := x
      rcases Sys.step_receive_event hs with ⟨reply, shown, rfl⟩ | ⟨er, rfl⟩ | rfl
      · have hn : ∀ q ∈ s.outgoing ++ reply.toList, ∀ c, q ≠ .connect c := by
          rw [hg]
          intro q hq
          cases reply with
          | none => simp at hq
          | some r =>
            simp only [Option.toList, List.nil_append, List.mem_singleton] at hq
            subst hq
            exact Ident.reply_ne hs
        cases shown
        · exact sm_flush o' { s with sys := sys, outgoing := s.outgoing ++ reply.toList } hn [.read p] io T
        · exact sm_flush o' { s with sys := sys, outgoing := s.outgoing ++ reply.toList } hn [.read p, .delivered p] io T
      · simp [br, Smol.finish, sm, sr]
      · simp [br, Smol.finish, sm, sr]

theorem sm_onRead (s : Smol) (hg : s.outgoing = []) (buffer chunk : Bytes) (io : Bool) (T : Times) :
    (sm o' s).onRead buffer chunk io T = sr o' (s.onRead buffer chunk io T) := by
  unfold Smol.onRead
  have e : (sm o' s).checks = s.checks := rfl
  rw [e]
  split
  · exact sm_finish o' s [] _
  · split
    · rfl
    · dsimp only
      split
      · rename_i p rest _
        exact sm_onPacket o' { s with network := some rest } hg p io T
      · simp [sm, sr]
      · exact sm_finish o' s [] _
      · exact sm_finish o' { s with sys := s.sys.die } [] _

theorem sm_onOutgoing (s : Smol) (hc : Ident.Clear s.sys) (io : Bool) (T : Times) :
    (sm o' s).onOutgoing io T = sr o' (s.onOutgoing io T) := by
  unfold Smol.onOutgoing
  rw [show (sm o' s).sys.queue = s.sys.queue from rfl, show (sm o' s).sys.pool = s.sys.pool from rfl]
  split
  · split
    · exact sm_finish o' s [] _
    · rfl
  · rename_i p rest hq
    have hw := Ident.asIf_wrote (o' := o') (hc.head hq) T.fire T.first
    rw [show (sm o' s).sys = big o'.maximumPacketSize s.sys from rfl, step_other _ _ (.write false) nofun, step_other _ _ (.write true) nofun]
    split
    · cases hs : s.sys.step (.write false) with
      | none => rfl
      | some x => exact sm_finish o' { s with sys := x.1 } [] _
    · cases hs : s.sys.step (.write true) with
      | none => rfl
      | some x =>
        obtain ⟨sys, e⟩ := x
        obtain ⟨q, rest', hq', ⟨-, rfl | ⟨er, rfl⟩ | rfl⟩ | ⟨h, -⟩⟩ := Sys.step_write_event hs
        · simp only [br, Option.map_some]
          split <;> simp [Smol.finish, sm, sr, hw]
        · simp [br, Smol.finish, sm, sr, hw]
        · simp [br, Smol.finish, sm, sr, hw]
        · simp at h

theorem sm_onTimer (s : Smol) (io : Bool) (T : Times) : (sm o' s).onTimer io T = sr o' (s.onTimer io T) := by
  have q : (sm o' s).sleepOver T = s.sleepOver T := rfl
  have p : (sm o' s).perform = s.perform := rfl
  have a : (sm o' s).await = s.await := rfl
  unfold Smol.onTimer
  rw [q, p, a]
  split
  · split
    · split <;> simp [Smol.finish, sm, sr]
    · split <;> simp [Smol.finish, sm, sr]
  · rfl

theorem sm_turn (s : Smol) (hc : Ident.Clear s.sys) (hg : s.outgoing = []) (b : SmolBranch) (io : Bool) (T : Times) :
    (sm o' s).turn b io T = sr o' (s.turn b io T) := by
  have k : T.ok (sm o' s).now = T.ok s.now := rfl
  have e : (sm o' s).sys.alive = s.sys.alive := rfl
  have r : (sm o' s).running = s.running := rfl
  have n : (sm o' s).network = s.network := rfl
  unfold Smol.turn
  rw [n, k, e, r]
  split
  · split
    · cases b with
      | read chunk => exact sm_onRead o' { s with now := T.second } hg _ chunk io T
      | readError => exact sm_finish o' { s with now := T.second } [] (.error .io)
      | outgoing => exact sm_onOutgoing o' { s with now := T.second } hc io T
      | timer => exact sm_onTimer o' { s with now := T.second } io T
    · rfl
  · rfl

theorem sm_established (s : Smol) (c : ConnAck) (buffer : Bytes) (i : SmolConnect) (ob : List Obs) :
    (sm o' s).established c buffer i (ob.map (asIf o')) = sr o' (s.established c buffer i ob) := by
  have n : (sm o' s).noteConnAck c i.times.fire = sm o' (s.noteConnAck c i.times.fire) := rfl
  unfold Smol.established
  dsimp only
  rw [n]
  generalize s.noteConnAck c i.times.fire = t
  rw [show (sm o' t).sys = big o'.maximumPacketSize t.sys from rfl, step_other _ _ (.connAck c) nofun]
  cases hs : t.sys.step (.connAck c) with
  | none => rfl
  | some x =>
    obtain ⟨sys, e⟩ := x
    rcases Sys.step_connAck_event hs with ⟨ps, rfl⟩ | rfl | ⟨er, rfl⟩ | rfl
    · have hp : ps.map (fun p => asIf o' (.wrote p i.times.fire i.times.first)) = ps.map fun p => .wrote p i.times.fire i.times.first :=
        List.map_congr_left fun p hp => Ident.asIf_wrote (Ident.again_ne hs p hp) _ _
      simp only [br, Option.map_some]
      split <;> simp [sm, sr, hp, Function.comp_def]
    · rfl
    · simp [br, sm, sr]
    · simp [br, sm, sr]

theorem sm_connect (s : Smol) (h : ∃ b, s.options.connectPacket.write = .ok b) (h' : ∃ b, o'.connectPacket.write = .ok b)
    (hk : s.options.keepAlive = o'.keepAlive) (i : SmolConnect) : (sm o' s).connect i = sr o' (s.connect i) := by
  have w := Ident.smol_writePacket h i.connectOk
  have w' : Smol.writePacket (sm o' s).options.connectPacket i.connectOk = _ := Ident.smol_writePacket h' i.connectOk
  unfold Smol.connect
  dsimp only
  have k : i.times.ok (sm o' s).now = i.times.ok s.now := rfl
  have e : (sm o' s).sys.alive = s.sys.alive := rfl
  have r : (sm o' s).running = s.running := rfl
  have q : (sm o' s).checks = s.checks := rfl
  have c : ∀ a b, asIf o' (.wrote s.options.connectPacket a b) = .wrote (sm o' s).options.connectPacket a b := by
    intro a b
    rw [Ident.asIf_connect, hk]
    rfl
  rw [k, e, r, q, w, w']
  split
  · split
    · simp [sm, sr]
    · split
      · split
        · rename_i c' _ _ _
          rw [← c]
          exact sm_established o' { s with now := i.times.second } _ _ i
            [.wrote s.options.connectPacket i.times.enter i.times.fire, .read (.connAck c')]
        · rw [← c]; simp [sm, sr]
      · rw [← c]; simp [sm, sr]
      · rfl
      · rw [← c]; simp [sm, sr]
      · rw [← c]; simp [sm, sr, big, Sys.die]
      · rfl
  · rfl

/-- between two steps -/
structure SmolOf (s : Smol) : Prop where
  of : Ident.SmolOf o s
  limit : s.sys.maxPacketSize ≤ o'.maximumPacketSize

theorem sm_step (hk : o.keepAlive = o'.keepAlive) (h : ∃ b, o.connectPacket.write = .ok b) (h' : ∃ b, o'.connectPacket.write = .ok b)
    (s : Smol) (op : SmolOp) (hs : SmolOf o o' s) (hf : ∀ s' ob, s.step op = some (s', ob) → NoneTooLarge ob) :
    (sm o' s).step op = sr o' (s.step op) := by
  have a : (sm o' s).sys.alive = s.sys.alive := rfl
  have r : (sm o' s).running = s.running := rfl
  have n : (sm o' s).network = s.network := rfl
  cases op with
  | client op =>
    simp only [Smol.step] at hf ⊢
    split
    · rename_i hc
      rw [if_pos hc] at hf
      rw [show (sm o' s).sys = big o'.maximumPacketSize s.sys from rfl, step_big hs.limit op]
      · cases hx : s.sys.step op with
        | none => rfl
        | some x => simp [br, sm, sr]
      · intro s' e hx q id n he
        rw [hx] at hf
        subst he
        exact hf _ _ rfl q id n (by simp)
    · rfl
  | dropNetwork =>
    simp only [Smol.step]
    rw [r, show (sm o' s).sys = big o'.maximumPacketSize s.sys from rfl, step_other _ _ .dropNetwork nofun]
    split
    · rfl
    · cases hx : s.sys.step .dropNetwork with
      | none => rfl
      | some x => simp [br, sm, sr]
  | connect i => exact sm_connect o' s (by rw [hs.of.options]; exact h) h' (by rw [hs.of.options]; exact hk) i
  | start =>
    simp only [Smol.step]
    rw [a, r, n]
    split
    · split <;> simp [sm, sr]
    · rfl
  | turn b io T => exact sm_turn o' s hs.of.clear hs.of.good.outgoing b io T
  | cancel =>
    simp only [Smol.step]
    rw [r]
    split <;> simp [sm, sr]

theorem smolOf_step (s : Smol) (op : SmolOp) (s' : Smol) (ob : List Obs) (h : SmolOf o o' s) (hs : s.step op = some (s', ob)) :
    SmolOf o o' s' :=
  ⟨Ident.smolOf_step o s op s' ob h.of hs,
    Nat.le_trans (Nat.le_of_eq (vstep_limit (v := s.view) (w := s'.view) (Smol.step_vstep h.of.good hs).1)) h.limit⟩

end Limit
end Mqrstt
