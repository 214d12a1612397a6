import Verif.Spec.Untimed
import Verif.Proof.Identity
/-!
# Only the timer looks at the keep-alive time (C124)
-/

namespace Mqrstt
open Mqrstt.Spec

namespace Untimed

/-- unwinding: steps that look alike keep what looks alike alike -/
theorem history {S O B : Type} (step : S → O → Option (S × List Obs)) (I : S → Prop) (ok : O → Prop) (R : S → S → Prop) (h : Obs → B)
    (c : ∀ s s' o, I s → I s' → R s s' → ok o → (step s o = none ∧ step s' o = none) ∨
      ∃ r r', step s o = some r ∧ step s' o = some r' ∧ R r.1 r'.1 ∧ r.2.map h = r'.2.map h)
    (pres : ∀ s o s' ob, I s → step s o = some (s', ob) → I s') (s s' : S) (hs : I s) (hs' : I s') (hr : R s s') (ops : List O)
    (ho : ∀ o ∈ ops, ok o) : (Mqrstt.history step s ops).2.map h = (Mqrstt.history step s' ops).2.map h := by
  induction ops generalizing s s' with
  | nil => rfl
  | cons o ops ih =>
    have ho' := fun p hp => ho p (.tail _ hp)
    rcases c s s' o hs hs' hr (ho o (.head _)) with ⟨e, e'⟩ | ⟨r, r', e, e', hr', hw⟩
    · simp only [Mqrstt.history, e, e']
      exact ih s s' hs hs' hr ho'
    · simp only [Mqrstt.history, e, e', List.map_append, hw]
      rw [ih r.1 r'.1 (pres s o r.1 r.2 hs e) (pres s' o r'.1 r'.2 hs' e') hr' ho']

theorem same_sys {o o' : Options} (h : SameLimits o o') : o'.sys = o.sys := by
  unfold Options.sys Options.sendMaximum Options.receiveMaximum Options.maximumPacketSize
  rw [h.cleanStart, h.receiveMax, h.sendMax, h.maxPacketSize]

/-! ## tokio -/

/-- `s` with other options and with pings switched on or off -/
def tk (o' : Options) (b : Bool) (s : Tokio) : Tokio := { s with options := o', perform := b }

/-- alike but for options and pings -/
def TkAlike (r r' : Option (Tokio × List Obs)) : Prop :=
  (r = none ∧ r' = none) ∨ ∃ x x', r = some x ∧ r' = some x' ∧ (∃ o' b, x'.1 = tk o' b x.1) ∧ x.2.map butConnect = x'.2.map butConnect

theorem tk_none : TkAlike none none := .inl ⟨rfl, rfl⟩

theorem tk_some {s : Tokio} {ob : List Obs} (o' : Options) (b : Bool) : TkAlike (some (s, ob)) (some (tk o' b s, ob)) :=
  .inr ⟨_, _, rfl, rfl, ⟨o', b, rfl⟩, rfl⟩

theorem tk_map {s : Tokio} {ob ob' : List Obs} (o' : Options) (b : Bool) (h : ob.map butConnect = ob'.map butConnect) :
    TkAlike (some (s, ob)) (some (tk o' b s, ob')) :=
  .inr ⟨_, _, rfl, rfl, ⟨o', b, rfl⟩, h⟩

variable (o' : Options) (b : Bool)

theorem tk_onPacket (s : Tokio) (p : Packet) (io : Bool) (T : Times) : TkAlike (s.onPacket p io T) ((tk o' b s).onPacket p io T) := by
  unfold Tokio.onPacket
  split
  · exact tk_some o' b
  · exact tk_some o' b
  · have e : (tk o' b s).sys = s.sys := rfl
    rw [e]
    split
    · rename_i reply shown hs
      cases reply with
      | none => exact tk_some o' b
      | some r =>
        dsimp only
        split
        · exact tk_some o' b
        · exact tk_some o' b
    · exact tk_some o' b
    · exact tk_some o' b
    · exact tk_none

theorem tk_onRead (s : Tokio) (c : TokioConn) (io : Bool) (T : Times) : TkAlike (s.onRead c io T) ((tk o' b s).onRead c io T) := by
  unfold Tokio.onRead
  split
  · rename_i p rest _
    exact tk_onPacket o' b { s with network := some { c with input := rest } } p io T
  · exact tk_some o' b
  · split
    · exact tk_some o' b
    · exact tk_none
  · exact tk_some o' b

theorem tk_onOutgoing (s : Tokio) (io : Bool) (T : Times) : TkAlike (s.onOutgoing io T) ((tk o' b s).onOutgoing io T) := by
  unfold Tokio.onOutgoing
  have e : (tk o' b s).sys = s.sys := rfl
  rw [e]
  split
  · split
    · exact tk_some o' b
    · exact tk_none
  · split
    · split
      · exact tk_some o' b
      · exact tk_none
    · split
      · dsimp only
        split
        · exact tk_some o' b
        · exact tk_some o' b
      · exact tk_some o' b
      · exact tk_some o' b
      · exact tk_none

theorem tk_turn (s : Tokio) (r : TokioBranch) (hr : r ≠ .timer) (lost : Nat) (io : Bool) (T : Times) :
    TkAlike (s.turn r lost io T) ((tk o' b s).turn r lost io T) := by
  have hrun : (tk o' b s).run = s.run := rfl
  have hnet : (tk o' b s).network = s.network := rfl
  have k : T.ok (tk o' b s).now = T.ok s.now := rfl
  have e : (tk o' b s).sys = s.sys := rfl
  unfold Tokio.turn
  rw [hrun, hnet, k, e]
  split
  · rename_i c _ _
    split
    · cases r with
      | read => exact tk_onRead o' b { s with now := T.second } _ io T
      | readError => exact tk_some o' b
      | outgoing =>
        dsimp only
        split
        · exact tk_onOutgoing o' b { s with now := T.second, network := some { c with input := c.input.drop lost } } io T
        · exact tk_none
      | timer => exact absurd rfl hr
    · exact tk_none
  · exact tk_none

theorem tk_noteConnAck (s : Tokio) (c : ConnAck) (t : Nat) : ∃ o'' b'', (tk o' b s).noteConnAck c t = tk o'' b'' (s.noteConnAck c t) :=
  ⟨_, _, rfl⟩

theorem tk_established (s : Tokio) (c : ConnAck) (rest : Bytes) (i : TokioConnect) (ob ob' : List Obs)
    (h : ob.map butConnect = ob'.map butConnect) : TkAlike (s.established c rest i ob) ((tk o' b s).established c rest i ob') := by
  obtain ⟨o'', b'', n⟩ := tk_noteConnAck o' b s c i.times.fire
  unfold Tokio.established
  dsimp only
  rw [n]
  have e : (tk o'' b'' (s.noteConnAck c i.times.fire)).sys = (s.noteConnAck c i.times.fire).sys := rfl
  rw [e]
  generalize s.noteConnAck c i.times.fire = t
  split
  · split <;> exact tk_map o'' b'' (by simp [h])
  · exact tk_map o'' b'' (by simp [h])
  · exact tk_map o'' b'' (by simp [h])
  · exact tk_none

theorem tk_connect (s : Tokio) (h : ∃ b, s.options.connectPacket.asyncWrite = .ok b)
    (h' : ∃ b, o'.connectPacket.asyncWrite = .ok b) (i : TokioConnect) : TkAlike (s.connect i) ((tk o' b s).connect i) := by
  have w := Ident.tokio_writePacket h i.connectOk
  have w' : Tokio.writePacket (tk o' b s).options.connectPacket i.connectOk = _ := Ident.tokio_writePacket h' i.connectOk
  unfold Tokio.connect
  dsimp only
  have k : i.times.ok (tk o' b s).now = i.times.ok s.now := rfl
  have e : (tk o' b s).sys = s.sys := rfl
  have r : (tk o' b s).run.isNone = s.run.isNone := rfl
  rw [k, e, r, w, w']
  split
  · split
    · exact tk_some o' b
    · split
      · split
        · exact tk_established o' b { s with now := i.times.second } _ _ i _ _ (by simp [butConnect, Options.connectPacket])
        · exact tk_map o' b (by simp [butConnect, Options.connectPacket])
      · exact tk_map o' b (by simp [butConnect, Options.connectPacket])
      · exact tk_map o' b (by simp [butConnect, Options.connectPacket])
      · split
        · exact tk_map o' b (by simp [butConnect, Options.connectPacket])
        · exact tk_none
      · exact tk_map o' b (by simp [butConnect, Options.connectPacket])
  · exact tk_none

theorem tk_step (s : Tokio) (h : ∃ b, s.options.connectPacket.asyncWrite = .ok b) (h' : ∃ b, o'.connectPacket.asyncWrite = .ok b)
    (op : TokioOp) (ho : tokioUntimed op) : TkAlike (s.step op) ((tk o' b s).step op) := by
  have e : (tk o' b s).sys = s.sys := rfl
  have r : (tk o' b s).run = s.run := rfl
  have n : (tk o' b s).network = s.network := rfl
  cases op with
  | client op =>
    simp only [Tokio.step]
    rw [e]
    split
    · split
      · exact tk_some o' b
      · exact tk_none
    · exact tk_none
  | dropNetwork =>
    simp only [Tokio.step]
    rw [e, r]
    split
    · split
      · exact tk_some o' b
      · exact tk_none
    · exact tk_none
  | connect i => exact tk_connect o' b s h h' i
  | start =>
    simp only [Tokio.step]
    rw [e, r, n]
    split
    · split <;> exact tk_some o' b
    · exact tk_none
  | arrive bs =>
    simp only [Tokio.step]
    rw [n]
    split
    · split
      · exact tk_none
      · exact tk_some o' b
    · exact tk_none
  | close =>
    simp only [Tokio.step]
    rw [n]
    split
    · exact tk_some o' b
    · exact tk_none
  | turn k lost io T => exact tk_turn o' b s k (by rintro rfl; exact ho) lost io T
  | cancel lost =>
    simp only [Tokio.step]
    rw [r, n]
    split
    · split
      · exact tk_some o' b
      · exact tk_none
    · exact tk_none

/-- CONNECT can be encoded -/
def TkEnc (s : Tokio) : Prop := ∃ b, s.options.connectPacket.asyncWrite = .ok b

theorem tkEnc_step (s : Tokio) (op : TokioOp) (s' : Tokio) (ob : List Obs) (h : TkEnc s) (hs : s.step op = some (s', ob)) : TkEnc s' := by
  obtain ⟨k, hk⟩ := Tokio.step_options hs
  unfold TkEnc
  rw [hk]
  exact Ident.async_keepAlive k h

theorem tokio (o o' : Options) (hl : SameLimits o o') (h : ∃ b, o.connectPacket.asyncWrite = .ok b)
    (h' : ∃ b, o'.connectPacket.asyncWrite = .ok b) (t : Nat) (ops : List TokioOp) (ho : ∀ op ∈ ops, tokioUntimed op) :
    (Mqrstt.history Tokio.step (Tokio.new o t) ops).2.map butConnect = (Mqrstt.history Tokio.step (Tokio.new o' t) ops).2.map butConnect := by
  refine Untimed.history Tokio.step TkEnc tokioUntimed (fun s s' => ∃ o' b, s' = tk o' b s) butConnect ?_ tkEnc_step (Tokio.new o t) (Tokio.new o' t) h h'
    ⟨o', true, by unfold Tokio.new tk; rw [same_sys hl]⟩ ops ho
  rintro s _ op hs hs' ⟨o'', b, rfl⟩ hop
  exact tk_step o'' b s hs hs' op hop

/-! ## smol -/

/-- `s` with other options, another keep-alive time and with pings switched on or off -/
def sm (o' : Options) (n : Nat) (b : Bool) (s : Smol) : Smol := { s with options := o', keepAlive := n, perform := b }

/-- alike but for options, keep-alive and pings -/
def SmAlike (r r' : Option (Smol × List Obs)) : Prop :=
  (r = none ∧ r' = none) ∨
    ∃ x x', r = some x ∧ r' = some x' ∧ (∃ o' n b, x'.1 = sm o' n b x.1) ∧ x.2.map butConnect = x'.2.map butConnect

theorem sm_none : SmAlike none none := .inl ⟨rfl, rfl⟩

theorem sm_some {s : Smol} {ob : List Obs} (o' : Options) (n : Nat) (b : Bool) : SmAlike (some (s, ob)) (some (sm o' n b s, ob)) :=
  .inr ⟨_, _, rfl, rfl, ⟨o', n, b, rfl⟩, rfl⟩

theorem sm_map {s : Smol} {ob ob' : List Obs} (o' : Options) (n : Nat) (b : Bool) (h : ob.map butConnect = ob'.map butConnect) :
    SmAlike (some (s, ob)) (some (sm o' n b s, ob')) :=
  .inr ⟨_, _, rfl, rfl, ⟨o', n, b, rfl⟩, h⟩

variable (n : Nat)

theorem sm_flush (s : Smol) (ob : List Obs) (io : Bool) (T : Times) :
    SmAlike (some (s.flushOutgoing ob io T)) (some ((sm o' n b s).flushOutgoing ob io T)) := by
  unfold Smol.flushOutgoing
  have e : (sm o' n b s).outgoing = s.outgoing := rfl
  rw [e]
  split <;> exact sm_some o' n b

theorem sm_onPacket (s : Smol) (p : Packet) (io : Bool) (T : Times) : SmAlike (s.onPacket p io T) ((sm o' n b s).onPacket p io T) := by
  unfold Smol.onPacket
  split
  · exact sm_flush o' b n { s with await := none } _ io T
  · exact sm_some o' n b
  · have e : (sm o' n b s).sys = s.sys := rfl
    rw [e]
    split
    · rename_i sys _ reply shown hs
      exact sm_flush o' b n { s with sys := sys, outgoing := s.outgoing ++ reply.toList } _ io T
    · exact sm_some o' n b
    · exact sm_some o' n b
    · exact sm_none

theorem sm_onRead (s : Smol) (buffer chunk : Bytes) (io : Bool) (T : Times) :
    SmAlike (s.onRead buffer chunk io T) ((sm o' n b s).onRead buffer chunk io T) := by
  unfold Smol.onRead
  have e : (sm o' n b s).checks = s.checks := rfl
  rw [e]
  split
  · exact sm_some o' n b
  · split
    · exact sm_none
    · dsimp only
      split
      · rename_i p rest _
        exact sm_onPacket o' b n { s with network := some rest } p io T
      · exact sm_some o' n b
      · exact sm_some o' n b
      · exact sm_some o' n b

theorem sm_onOutgoing (s : Smol) (io : Bool) (T : Times) : SmAlike (s.onOutgoing io T) ((sm o' n b s).onOutgoing io T) := by
  unfold Smol.onOutgoing
  have e : (sm o' n b s).sys = s.sys := rfl
  rw [e]
  split
  · split
    · exact sm_some o' n b
    · exact sm_none
  · split
    · split
      · exact sm_some o' n b
      · exact sm_none
    · split
      · dsimp only
        split <;> exact sm_some o' n b
      · exact sm_some o' n b
      · exact sm_some o' n b
      · exact sm_none

theorem sm_turn (s : Smol) (r : SmolBranch) (hr : r ≠ .timer) (io : Bool) (T : Times) :
    SmAlike (s.turn r io T) ((sm o' n b s).turn r io T) := by
  have hrun : (sm o' n b s).running = s.running := rfl
  have hnet : (sm o' n b s).network = s.network := rfl
  have k : T.ok (sm o' n b s).now = T.ok s.now := rfl
  have e : (sm o' n b s).sys = s.sys := rfl
  unfold Smol.turn
  rw [hrun, hnet, k, e]
  split
  · split
    · cases r with
      | read chunk => exact sm_onRead o' b n { s with now := T.second } _ chunk io T
      | readError => exact sm_some o' n b
      | outgoing => exact sm_onOutgoing o' b n { s with now := T.second } io T
      | timer => exact absurd rfl hr
    · exact sm_none
  · exact sm_none

theorem sm_noteConnAck (s : Smol) (c : ConnAck) (t : Nat) :
    ∃ n'' b'', (sm o' n b s).noteConnAck c t = sm o' n'' b'' (s.noteConnAck c t) := ⟨_, _, rfl⟩

theorem sm_established (s : Smol) (c : ConnAck) (buffer : Bytes) (i : SmolConnect) (ob ob' : List Obs)
    (h : ob.map butConnect = ob'.map butConnect) :
    SmAlike (s.established c buffer i ob) ((sm o' n b s).established c buffer i ob') := by
  obtain ⟨n'', b'', q⟩ := sm_noteConnAck o' b n s c i.times.fire
  unfold Smol.established
  dsimp only
  rw [q]
  have e : (sm o' n'' b'' (s.noteConnAck c i.times.fire)).sys = (s.noteConnAck c i.times.fire).sys := rfl
  rw [e]
  generalize s.noteConnAck c i.times.fire = t
  split
  · split <;> exact sm_map o' n'' b'' (by simp [h])
  · exact sm_map o' n'' b'' (by simp [h])
  · exact sm_map o' n'' b'' (by simp [h])
  · exact sm_none

theorem sm_connect (s : Smol) (h : ∃ b, s.options.connectPacket.write = .ok b) (h' : ∃ b, o'.connectPacket.write = .ok b)
    (i : SmolConnect) : SmAlike (s.connect i) ((sm o' n b s).connect i) := by
  have w := Ident.smol_writePacket h i.connectOk
  have w' : Smol.writePacket (sm o' n b s).options.connectPacket i.connectOk = _ := Ident.smol_writePacket h' i.connectOk
  unfold Smol.connect
  dsimp only
  have k : i.times.ok (sm o' n b s).now = i.times.ok s.now := rfl
  have e : (sm o' n b s).sys = s.sys := rfl
  have r : (sm o' n b s).running = s.running := rfl
  have q : (sm o' n b s).checks = s.checks := rfl
  rw [k, e, r, q, w, w']
  split
  · split
    · exact sm_some o' n b
    · split
      · split
        · exact sm_established o' b n { s with now := i.times.second } _ _ i _ _ (by simp [butConnect, Options.connectPacket])
        · exact sm_map o' n b (by simp [butConnect, Options.connectPacket])
      · exact sm_map o' n b (by simp [butConnect, Options.connectPacket])
      · exact sm_none
      · exact sm_map o' n b (by simp [butConnect, Options.connectPacket])
      · exact sm_map o' n b (by simp [butConnect, Options.connectPacket])
      · exact sm_none
  · exact sm_none

theorem sm_step (s : Smol) (h : ∃ b, s.options.connectPacket.write = .ok b) (h' : ∃ b, o'.connectPacket.write = .ok b)
    (op : SmolOp) (ho : smolUntimed op) : SmAlike (s.step op) ((sm o' n b s).step op) := by
  have e : (sm o' n b s).sys = s.sys := rfl
  have r : (sm o' n b s).running = s.running := rfl
  have w : (sm o' n b s).network = s.network := rfl
  cases op with
  | client op =>
    simp only [Smol.step]
    rw [e]
    split
    · split
      · exact sm_some o' n b
      · exact sm_none
    · exact sm_none
  | dropNetwork =>
    simp only [Smol.step]
    rw [e, r]
    split
    · exact sm_none
    · split
      · exact sm_some o' n b
      · exact sm_none
  | connect i => exact sm_connect o' b n s h h' i
  | start =>
    simp only [Smol.step]
    rw [e, r, w]
    split
    · split <;> exact sm_some o' n b
    · exact sm_none
  | turn k io T => exact sm_turn o' b n s k (by rintro rfl; exact ho) io T
  | cancel =>
    simp only [Smol.step]
    rw [r]
    split
    · exact sm_some o' n b
    · exact sm_none

/-- CONNECT can be encoded -/
def SmEnc (s : Smol) : Prop := ∃ b, s.options.connectPacket.write = .ok b

theorem smEnc_step (s : Smol) (op : SmolOp) (s' : Smol) (ob : List Obs) (h : SmEnc s) (hs : s.step op = some (s', ob)) : SmEnc s' := by
  unfold SmEnc
  rw [Smol.step_options hs]
  exact h

theorem smol (checks : Bool) (o o' : Options) (hl : SameLimits o o') (h : ∃ b, o.connectPacket.write = .ok b)
    (h' : ∃ b, o'.connectPacket.write = .ok b) (t : Nat) (ops : List SmolOp) (ho : ∀ op ∈ ops, smolUntimed op) :
    (Mqrstt.history Smol.step (Smol.new checks o t) ops).2.map butConnect =
      (Mqrstt.history Smol.step (Smol.new checks o' t) ops).2.map butConnect := by
  refine Untimed.history Smol.step SmEnc smolUntimed (fun s s' => ∃ o' n b, s' = sm o' n b s) butConnect ?_ smEnc_step (Smol.new checks o t)
    (Smol.new checks o' t) h h'
    ⟨o', o'.keepAlive, true, by unfold Smol.new sm; rw [same_sys hl]⟩ ops ho
  rintro s _ op hs hs' ⟨o'', n, b, rfl⟩ hop
  exact sm_step o'' b n s hs hs' op hop

/-! ## dropped futures, tokio -/

theorem tk_dropConnect (s : Tokio) (h : ∃ b, s.options.connectPacket.asyncWrite = .ok b)
    (h' : ∃ b, o'.connectPacket.asyncWrite = .ok b) (i : TokioConnect) (d : ConnectDropAt) :
    TkAlike (s.dropConnect i d) ((tk o' b s).dropConnect i d) := by
  have w := Ident.tokio_writePacket h true
  have w' : Tokio.writePacket (tk o' b s).options.connectPacket true = _ := Ident.tokio_writePacket h' true
  unfold Tokio.dropConnect
  dsimp only
  have k : i.times.ok (tk o' b s).now = i.times.ok s.now := rfl
  have e : (tk o' b s).sys = s.sys := rfl
  have r : (tk o' b s).run.isNone = s.run.isNone := rfl
  rw [k, e, r, w, w']
  split
  · split
    · exact tk_none
    · split
      · rename_i written
        cases written <;> exact tk_map o' b (by simp [butConnect, Options.connectPacket])
      · split
        · split
          · rename_i c _ _ _
            obtain ⟨o'', b'', n⟩ := tk_noteConnAck o' b { s with now := i.times.second } c i.times.fire
            rw [show Tokio.noteConnAck ⟨s.sys, (tk o' b s).options, (tk o' b s).perform, (tk o' b s).lastAction, (tk o' b s).network,
              (tk o' b s).run, i.times.second⟩ c i.times.fire = _ from n]
            have e' : (tk o'' b'' (({ s with now := i.times.second } : Tokio).noteConnAck c i.times.fire)).sys =
              (({ s with now := i.times.second } : Tokio).noteConnAck c i.times.fire).sys := rfl
            rw [e']
            generalize ({ s with now := i.times.second } : Tokio).noteConnAck c i.times.fire = t
            split
            · exact tk_map o'' b'' (by simp [butConnect, Options.connectPacket])
            · exact tk_none
          · exact tk_none
        · exact tk_none
      · split
        · split
          · rename_i c _ _ _
            obtain ⟨o'', b'', n⟩ := tk_noteConnAck o' b { s with now := i.times.second } c i.times.fire
            rw [show Tokio.noteConnAck ⟨s.sys, (tk o' b s).options, (tk o' b s).perform, (tk o' b s).lastAction, (tk o' b s).network,
              (tk o' b s).run, i.times.second⟩ c i.times.fire = _ from n]
            have e' : (tk o'' b'' (({ s with now := i.times.second } : Tokio).noteConnAck c i.times.fire)).sys =
              (({ s with now := i.times.second } : Tokio).noteConnAck c i.times.fire).sys := rfl
            rw [e']
            generalize ({ s with now := i.times.second } : Tokio).noteConnAck c i.times.fire = t
            split
            · exact tk_map o'' b'' (by simp [butConnect, Options.connectPacket])
            · exact tk_none
          · exact tk_none
        · exact tk_none
  · exact tk_none

/-- alike but for options, pings and the bytes written -/
def TwAlike (r r' : Option (TokioWire × List Obs)) : Prop :=
  (r = none ∧ r' = none) ∨
    ∃ x x', r = some x ∧ r' = some x' ∧ (∃ o' b, x'.1.net = tk o' b x.1.net) ∧ x.2.map butConnect = x'.2.map butConnect

theorem tw_none : TwAlike none none := .inl ⟨rfl, rfl⟩

theorem tw_some {s s' : TokioWire} {ob : List Obs} (h : s'.net = tk o' b s.net) : TwAlike (some (s, ob)) (some (s', ob)) :=
  .inr ⟨_, _, rfl, rfl, ⟨o', b, h⟩, rfl⟩

theorem tw_cut (s s' : TokioWire) (h : s'.net = tk o' b s.net) (p : Packet) (k : Nat) (ob : List Obs) :
    TwAlike (s.cut p k ob) (s'.cut p k ob) := by
  unfold TokioWire.cut
  split
  · exact tw_some o' b (by simp only [h]; rfl)
  · exact tw_none

theorem tw_dropRead (s s' : TokioWire) (h : s'.net = tk o' b s.net) (c : TokioConn) (d : DropAt) :
    TwAlike (s.dropRead c d) (s'.dropRead c d) := by
  unfold TokioWire.dropRead
  split
  · rename_i p rest _
    dsimp only
    have e : s'.net.sys = s.net.sys := by rw [h]; rfl
    rw [e]
    split
    · split
      · exact tw_some o' b (by simp only [h]; rfl)
      · exact tw_none
    · split
      · exact tw_some o' b (by simp only [h]; rfl)
      · exact tw_none
    · split
      · split
        · split
          · exact tw_some o' b (by simp only [h]; rfl)
          · exact tw_none
        · exact tw_cut o' b _ _ (by simp only [h]; rfl) _ _ _
        · exact tw_none
      · exact tw_none
  · exact tw_none

theorem tw_dropOutgoing (s s' : TokioWire) (h : s'.net = tk o' b s.net) (d : DropAt) :
    TwAlike (s.dropOutgoing d) (s'.dropOutgoing d) := by
  unfold TokioWire.dropOutgoing
  have e : s'.net.sys = s.net.sys := by rw [h]; rfl
  rw [e]
  split
  · split
    · exact tw_cut o' b _ _ (by simp only [h]; rfl) _ _ _
    · exact tw_none
  · exact tw_none

theorem tw_drop (s s' : TokioWire) (h : s'.net = tk o' b s.net) (r : TokioBranch) (hr : r ≠ .timer) (d : DropAt) (lost : Nat) (T : Times) :
    TwAlike (s.drop r d lost T) (s'.drop r d lost T) := by
  have hrun : s'.net.run = s.net.run := by rw [h]; rfl
  have hnet : s'.net.network = s.net.network := by rw [h]; rfl
  have k : s'.net.now = s.net.now := by rw [h]; rfl
  have e : s'.net.sys = s.net.sys := by rw [h]; rfl
  unfold TokioWire.drop
  rw [hrun, hnet, k, e]
  split
  · split
    · cases r with
      | read => exact tw_dropRead o' b _ _ (by simp only [h]; rfl) _ d
      | readError => exact tw_none
      | outgoing =>
        dsimp only
        split
        · exact tw_dropOutgoing o' b _ _ (by simp only [h]; rfl) d
        · exact tw_none
      | timer => exact absurd rfl hr
    · exact tw_none
  · exact tw_none

theorem tw_lift {r r' : Option (Tokio × List Obs)} (f f' : Tokio × List Obs → Bytes) (h : TkAlike r r') :
    TwAlike (match (generalizing := false) r with | some (net, obs) => some (⟨net, f (net, obs)⟩, obs) | none => none)
      (match (generalizing := false) r' with | some (net, obs) => some (⟨net, f' (net, obs)⟩, obs) | none => none) := by
  rcases h with ⟨rfl, rfl⟩ | ⟨x, x', rfl, rfl, h, hw⟩
  · exact tw_none
  · exact .inr ⟨_, _, rfl, rfl, h, hw⟩

theorem tw_step (s s' : TokioWire) (hn : s'.net = tk o' b s.net) (h : ∃ b, s.net.options.connectPacket.asyncWrite = .ok b)
    (h' : ∃ b, o'.connectPacket.asyncWrite = .ok b) (op : TokioWireOp) (ho : tokioWireUntimed op) : TwAlike (s.step op) (s'.step op) := by
  cases op with
  | op op =>
    have := tk_step o' b s.net h h' op ho
    rw [← hn] at this
    exact tw_lift (fun x => TokioWire.advance s.wire op x.2) (fun x => TokioWire.advance s'.wire op x.2) this
  | drop r d lost T => exact tw_drop o' b s s' hn r (by rintro rfl; exact ho) d lost T
  | dropConnect i d =>
    have := tk_dropConnect o' b s.net h h' i d
    rw [← hn] at this
    exact tw_lift (fun _ => s.wire) (fun _ => s'.wire) this

theorem tw_cut_options {s s' : TokioWire} {p : Packet} {k : Nat} {ob ob' : List Obs} (h : s.cut p k ob = some (s', ob')) :
    s'.net.options = s.net.options := by
  unfold TokioWire.cut at h
  split at h <;> simp at h
  rw [← h.1]

theorem tw_drop_options {s s' : TokioWire} {r : TokioBranch} {d : DropAt} {lost : Nat} {T : Times} {ob : List Obs}
    (h : s.drop r d lost T = some (s', ob)) : s'.net.options = s.net.options := by
  unfold TokioWire.drop TokioWire.dropRead TokioWire.dropOutgoing TokioWire.dropTimer at h
  dsimp only at h
  repeat' split at h
  all_goals first
    | (simp at h; done)
    | exact (tw_cut_options h).trans rfl
    | (simp only [Option.some.injEq, Prod.mk.injEq] at h; rw [← h.1])

theorem tk_dropConnect_options {s s' : Tokio} {i : TokioConnect} {d : ConnectDropAt} {ob : List Obs}
    (h : s.dropConnect i d = some (s', ob)) : ∃ k, s'.options = { s.options with keepAlive := k } := by
  unfold Tokio.dropConnect at h
  dsimp only at h
  repeat' split at h
  all_goals first
    | (simp at h; done)
    | (simp only [Option.some.injEq, Prod.mk.injEq] at h; rw [← h.1]; exact ⟨_, rfl⟩)

def TwEnc (s : TokioWire) : Prop := TkEnc s.net

theorem twEnc_step (s : TokioWire) (op : TokioWireOp) (s' : TokioWire) (ob : List Obs) (h : TwEnc s) (hs : s.step op = some (s', ob)) :
    TwEnc s' := by
  cases op with
  | op op =>
    simp only [TokioWire.step] at hs
    split at hs
    · rename_i e
      simp only [Option.some.injEq, Prod.mk.injEq] at hs
      rw [← hs.1]
      exact tkEnc_step _ _ _ _ h e
    · simp at hs
  | drop r d lost T =>
    unfold TwEnc TkEnc
    rw [tw_drop_options hs]
    exact h
  | dropConnect i d =>
    simp only [TokioWire.step] at hs
    split at hs
    · rename_i e
      simp only [Option.some.injEq, Prod.mk.injEq] at hs
      rw [← hs.1]
      obtain ⟨k, hk⟩ := tk_dropConnect_options e
      unfold TwEnc TkEnc
      rw [hk]
      exact Ident.async_keepAlive k h
    · simp at hs

theorem tokioWire (o o' : Options) (hl : SameLimits o o') (h : ∃ b, o.connectPacket.asyncWrite = .ok b)
    (h' : ∃ b, o'.connectPacket.asyncWrite = .ok b) (t : Nat) (ops : List TokioWireOp) (ho : ∀ op ∈ ops, tokioWireUntimed op) :
    (Mqrstt.history TokioWire.step (TokioWire.new o t) ops).2.map butConnect =
      (Mqrstt.history TokioWire.step (TokioWire.new o' t) ops).2.map butConnect := by
  refine Untimed.history TokioWire.step TwEnc tokioWireUntimed (fun s s' => ∃ o' b, s'.net = tk o' b s.net) butConnect ?_ twEnc_step
    (TokioWire.new o t) (TokioWire.new o' t) h h' ⟨o', true, by unfold TokioWire.new Tokio.new tk; rw [same_sys hl]⟩ ops ho
  rintro s s' op hs hs' ⟨o'', b, hn⟩ hop
  refine tw_step o'' b s s' hn hs ?_ op hop
  have := hs'
  unfold TwEnc TkEnc at this
  rw [hn] at this
  exact this

/-! ## dropped futures, smol -/

theorem sm_dropConnect (s : Smol) (h : ∃ b, s.options.connectPacket.write = .ok b) (h' : ∃ b, o'.connectPacket.write = .ok b)
    (i : SmolConnect) (d : ConnectDropAt) : SmAlike (s.dropConnect i d) ((sm o' n b s).dropConnect i d) := by
  have w := Ident.smol_writePacket h true
  have w' : Smol.writePacket (sm o' n b s).options.connectPacket true = _ := Ident.smol_writePacket h' true
  unfold Smol.dropConnect
  dsimp only
  have k : i.times.ok (sm o' n b s).now = i.times.ok s.now := rfl
  have e : (sm o' n b s).sys = s.sys := rfl
  have r : (sm o' n b s).running = s.running := rfl
  have q : (sm o' n b s).checks = s.checks := rfl
  rw [k, e, r, q, w, w']
  split
  · split
    · exact sm_none
    · split
      · rename_i written
        cases written <;> exact sm_map o' n b (by simp [butConnect, Options.connectPacket])
      · split
        · split
          · rename_i c _ _ _
            obtain ⟨n'', b'', q⟩ := sm_noteConnAck o' b n { s with now := i.times.second } c i.times.fire
            rw [show Smol.noteConnAck ⟨s.checks, s.sys, (sm o' n b s).options, (sm o' n b s).keepAlive, (sm o' n b s).perform,
              (sm o' n b s).lastAction, (sm o' n b s).await, (sm o' n b s).outgoing, (sm o' n b s).network, s.running,
              i.times.second⟩ c i.times.fire = _ from q]
            have e' : (sm o' n'' b'' (({ s with now := i.times.second } : Smol).noteConnAck c i.times.fire)).sys =
              (({ s with now := i.times.second } : Smol).noteConnAck c i.times.fire).sys := rfl
            rw [e']
            generalize ({ s with now := i.times.second } : Smol).noteConnAck c i.times.fire = t
            split
            · exact sm_map o' n'' b'' (by simp [butConnect, Options.connectPacket])
            · exact sm_none
          · exact sm_none
        · exact sm_none
      · split
        · split
          · rename_i c _ _ _
            obtain ⟨n'', b'', q⟩ := sm_noteConnAck o' b n { s with now := i.times.second } c i.times.fire
            rw [show Smol.noteConnAck ⟨s.checks, s.sys, (sm o' n b s).options, (sm o' n b s).keepAlive, (sm o' n b s).perform,
              (sm o' n b s).lastAction, (sm o' n b s).await, (sm o' n b s).outgoing, (sm o' n b s).network, s.running,
              i.times.second⟩ c i.times.fire = _ from q]
            have e' : (sm o' n'' b'' (({ s with now := i.times.second } : Smol).noteConnAck c i.times.fire)).sys =
              (({ s with now := i.times.second } : Smol).noteConnAck c i.times.fire).sys := rfl
            rw [e']
            generalize ({ s with now := i.times.second } : Smol).noteConnAck c i.times.fire = t
            split
            · exact sm_map o' n'' b'' (by simp [butConnect, Options.connectPacket])
            · exact sm_none
          · exact sm_none
        · exact sm_none
  · exact sm_none

/-- the relation between two states: nothing but options, keep-alive, pings and the bytes written differ -/
def SwRel (s s' : SmolWire) : Prop := (∃ o' n b, s'.net = sm o' n b s.net) ∧ s'.buffer = s.buffer

/-- alike but for options, keep-alive, pings and the bytes written -/
def SwAlike (r r' : Option (SmolWire × List Obs)) : Prop :=
  (r = none ∧ r' = none) ∨ ∃ x x', r = some x ∧ r' = some x' ∧ SwRel x.1 x'.1 ∧ x.2.map butConnect = x'.2.map butConnect

theorem sw_none : SwAlike none none := .inl ⟨rfl, rfl⟩

theorem sw_some {s s' : SmolWire} {ob : List Obs} (h : s'.net = sm o' n b s.net) (hb : s'.buffer = s.buffer) :
    SwAlike (some (s, ob)) (some (s', ob)) := .inr ⟨_, _, rfl, rfl, ⟨⟨o', n, b, h⟩, hb⟩, rfl⟩

theorem sw_cut (s s' : SmolWire) (h : s'.net = sm o' n b s.net) (hb : s'.buffer = s.buffer) (ps : List Packet) (k : Nat) (ob : List Obs) :
    SwAlike (s.cut ps k ob) (s'.cut ps k ob) := by
  unfold SmolWire.cut
  dsimp only
  rw [hb]
  split
  · exact sw_some o' b n (by simp only [h]; rfl) rfl
  · exact sw_none

theorem sw_dropRead (s s' : SmolWire) (h : s'.net = sm o' n b s.net) (hb : s'.buffer = s.buffer) (buffer chunk : Bytes) (d : DropAt) :
    SwAlike (s.dropRead buffer chunk d) (s'.dropRead buffer chunk d) := by
  unfold SmolWire.dropRead
  have e : s'.net.sys = s.net.sys := by rw [h]; rfl
  have c : s'.net.checks = s.net.checks := by rw [h]; rfl
  have g : s'.net.outgoing = s.net.outgoing := by rw [h]; rfl
  rw [c]
  dsimp only
  rw [e, g]
  split
  · exact sw_none
  · split
    · split
      · split
        · exact sw_some o' b n (by simp only [h]; rfl) hb
        · refine sw_cut o' b n _ _ ?_ ?_ _ _ _
          · simp only [h]; rfl
          · exact hb
      · split
        · exact sw_some o' b n (by simp only [h]; rfl) hb
        · exact sw_none
      · split
        · split
          · split
            · exact sw_some o' b n (by simp only [h]; rfl) hb
            · exact sw_none
          · refine sw_cut o' b n _ _ ?_ ?_ _ _ _
            · simp only [h]; rfl
            · exact hb
        · exact sw_none
    · exact sw_none

theorem sw_dropOutgoing (s s' : SmolWire) (h : s'.net = sm o' n b s.net) (hb : s'.buffer = s.buffer) (d : DropAt) :
    SwAlike (s.dropOutgoing d) (s'.dropOutgoing d) := by
  unfold SmolWire.dropOutgoing
  have e : s'.net.sys = s.net.sys := by rw [h]; rfl
  rw [e]
  split
  · split
    · refine sw_cut o' b n _ _ ?_ ?_ _ _ _
      · simp only [h]; rfl
      · exact hb
    · exact sw_none
  · exact sw_none

theorem sw_drop (s s' : SmolWire) (h : s'.net = sm o' n b s.net) (hb : s'.buffer = s.buffer) (r : SmolBranch) (hr : r ≠ .timer)
    (d : DropAt) (T : Times) : SwAlike (s.drop r d T) (s'.drop r d T) := by
  have hrun : s'.net.running = s.net.running := by rw [h]; rfl
  have hnet : s'.net.network = s.net.network := by rw [h]; rfl
  have k : s'.net.now = s.net.now := by rw [h]; rfl
  have e : s'.net.sys = s.net.sys := by rw [h]; rfl
  unfold SmolWire.drop
  rw [hrun, hnet, k, e]
  split
  · split
    · cases r with
      | read chunk => 
        refine sw_dropRead o' b n _ _ ?_ ?_ _ chunk d
        · simp only [h]; rfl
        · exact hb
      | readError => exact sw_none
      | outgoing => 
        refine sw_dropOutgoing o' b n _ _ ?_ ?_ d
        · simp only [h]; rfl
        · exact hb
      | timer => exact absurd rfl hr
    · exact sw_none
  · exact sw_none

theorem any_eq {ob ob' : List Obs} (h : ob.map butConnect = ob'.map butConnect) (f : Obs → Bool) (g : Obs ⊕ (Nat × Nat) → Bool)
    (hf : ∀ x, f x = g (butConnect x)) : ob.any f = ob'.any f := by
  have : ∀ l : List Obs, l.any f = (l.map butConnect).any g := by
    intro l
    rw [List.any_map]
    congr 1
    funext x
    exact hf x
  rw [this, this, h]

/-- the observation, or a CONNECT written -/
def back : Obs ⊕ (Nat × Nat) → Obs
  | .inl x => x
  | .inr (a, b) => .wrote .pingReq a b

theorem writes_eq {ob ob' : List Obs} (h : ob.map butConnect = ob'.map butConnect) : SmolWire.writes ob = SmolWire.writes ob' := by
  unfold SmolWire.writes
  rw [any_eq h _ (fun x => match back x with | .wrote _ _ _ => true | _ => false),
    any_eq h _ (fun x => match back x with | .read _ => true | _ => false),
    any_eq h _ (fun x => match back x with | .ended _ => true | _ => false)]
  all_goals
    intro x
    cases x <;> try rfl
    rename_i p _ _
    cases p <;> rfl

theorem connectedIn_eq {ob ob' : List Obs} (h : ob.map butConnect = ob'.map butConnect) : Obs.connectedIn ob = Obs.connectedIn ob' := by
  unfold Obs.connectedIn
  rw [any_eq h _ (fun x => match back x with | .connected _ _ => true | _ => false)]
  intro x
  cases x <;> try rfl
  rename_i p _ _
  cases p <;> rfl

theorem advance_eq (w w' buffer : Bytes) (op : SmolOp) {ob ob' : List Obs} (h : ob.map butConnect = ob'.map butConnect) :
    (SmolWire.advance w' buffer op ob').2 = (SmolWire.advance w buffer op ob).2 := by
  unfold SmolWire.advance
  rw [connectedIn_eq h, writes_eq h]
  cases op <;> dsimp only <;> split <;> rfl

theorem sw_step (s s' : SmolWire) (hn : s'.net = sm o' n b s.net) (hb : s'.buffer = s.buffer)
    (h : ∃ b, s.net.options.connectPacket.write = .ok b) (h' : ∃ b, o'.connectPacket.write = .ok b) (op : SmolWireOp)
    (ho : smolWireUntimed op) : SwAlike (s.step op) (s'.step op) := by
  cases op with
  | op op =>
    have := sm_step o' b n s.net h h' op ho
    rw [← hn] at this
    simp only [SmolWire.step]
    rcases this with ⟨e, e'⟩ | ⟨x, x', e, e', hr, hw⟩
    · rw [e, e']; exact sw_none
    · rw [e, e', hb]
      exact .inr ⟨_, _, rfl, rfl, ⟨hr, advance_eq _ _ _ _ hw⟩, hw⟩
  | drop r d T => exact sw_drop o' b n s s' hn hb r (by rintro rfl; exact ho) d T
  | dropConnect i d =>
    have := sm_dropConnect o' b n s.net h h' i d
    rw [← hn] at this
    simp only [SmolWire.step]
    rcases this with ⟨e, e'⟩ | ⟨x, x', e, e', hr, hw⟩
    · rw [e, e']; exact sw_none
    · rw [e, e']
      exact .inr ⟨_, _, rfl, rfl, ⟨hr, hb⟩, hw⟩

theorem sw_cut_options {s s' : SmolWire} {ps : List Packet} {k : Nat} {ob ob' : List Obs} (h : s.cut ps k ob = some (s', ob')) :
    s'.net.options = s.net.options := by
  unfold SmolWire.cut at h
  dsimp only at h
  split at h
  · simp only [Option.some.injEq, Prod.mk.injEq] at h
    rw [← h.1]
  · simp at h

theorem sw_drop_options {s s' : SmolWire} {r : SmolBranch} {d : DropAt} {T : Times} {ob : List Obs}
    (h : s.drop r d T = some (s', ob)) : s'.net.options = s.net.options := by
  unfold SmolWire.drop SmolWire.dropRead SmolWire.dropOutgoing SmolWire.dropTimer at h
  dsimp only at h
  repeat' split at h
  all_goals first
    | (simp at h; done)
    | exact (sw_cut_options h).trans rfl
    | (simp only [Option.some.injEq, Prod.mk.injEq] at h; rw [← h.1])

theorem sm_dropConnect_options {s s' : Smol} {i : SmolConnect} {d : ConnectDropAt} {ob : List Obs}
    (h : s.dropConnect i d = some (s', ob)) : s'.options = s.options := by
  unfold Smol.dropConnect at h
  dsimp only at h
  repeat' split at h
  all_goals first
    | (simp at h; done)
    | (simp only [Option.some.injEq, Prod.mk.injEq] at h; rw [← h.1]; first | done | rfl)

def SwEnc (s : SmolWire) : Prop := SmEnc s.net

theorem swEnc_step (s : SmolWire) (op : SmolWireOp) (s' : SmolWire) (ob : List Obs) (h : SwEnc s) (hs : s.step op = some (s', ob)) :
    SwEnc s' := by
  cases op with
  | op op =>
    simp only [SmolWire.step] at hs
    split at hs
    · rename_i e
      simp only [Option.some.injEq, Prod.mk.injEq] at hs
      rw [← hs.1]
      exact smEnc_step _ _ _ _ h e
    · simp at hs
  | drop r d T =>
    unfold SwEnc SmEnc
    rw [sw_drop_options hs]
    exact h
  | dropConnect i d =>
    simp only [SmolWire.step] at hs
    split at hs
    · rename_i e
      simp only [Option.some.injEq, Prod.mk.injEq] at hs
      rw [← hs.1]
      unfold SwEnc SmEnc
      rw [sm_dropConnect_options e]
      exact h
    · simp at hs

theorem smolWire (checks : Bool) (o o' : Options) (hl : SameLimits o o') (h : ∃ b, o.connectPacket.write = .ok b)
    (h' : ∃ b, o'.connectPacket.write = .ok b) (t : Nat) (ops : List SmolWireOp) (ho : ∀ op ∈ ops, smolWireUntimed op) :
    (Mqrstt.history SmolWire.step (SmolWire.new checks o t) ops).2.map butConnect =
      (Mqrstt.history SmolWire.step (SmolWire.new checks o' t) ops).2.map butConnect := by
  refine Untimed.history SmolWire.step SwEnc smolWireUntimed SwRel butConnect ?_ swEnc_step
    (SmolWire.new checks o t) (SmolWire.new checks o' t) h h'
    ⟨⟨o', o'.keepAlive, true, by unfold SmolWire.new Smol.new sm; rw [same_sys hl]⟩, rfl⟩ ops ho
  rintro s s' op hs hs' ⟨⟨o'', n, b, hn⟩, hb⟩ hop
  refine sw_step o'' b n s s' hn hb hs ?_ op hop
  have := hs'
  unfold SwEnc SmEnc at this
  rw [hn] at this
  exact this

end Untimed
end Mqrstt
