import Verif.Spec.Portable
import Verif.Proof.Verdict
/-! # smol is simulated by tokio (C111) -/

namespace Mqrstt
open Mqrstt.Spec _root_.Spec Mqrstt.Props

/-! ## bytes -/

theorem promising_rest {bs rest : Bytes} {ps : List Packet} (h : Stream BufferPacket bs ps rest) (hb : Promising bs) :
    Promising rest := by
  induction h with
  | nil => exact hb
  | @cons bs bs' rest p ps h _ ih =>
    apply ih
    obtain ⟨qs, sent, hs, m, e⟩ := hb
    cases hs with
    | nil =>
      rw [(List.append_eq_nil_iff.1 e).1] at h
      exact absurd h (BufferPacket.nil _ _)
    | @cons q qs b sent hq hs =>
      have h1 := BufferPacket.more _ _ _ sent (readable_reads hq).1
      rw [← e, List.nil_append] at h1
      obtain ⟨-, h2⟩ := BufferPacket.fn _ _ _ _ _ (BufferPacket.more _ _ _ m h) h1
      exact ⟨qs, sent, hs, m, h2⟩

/-- what the reader for buffers finds there the reader for streams finds -/
theorem promising_same {b r : Bytes} {p : Packet} (hb : Promising b) (h : BufferPacket b p r) : StreamPacket b p r := by
  obtain ⟨qs, sent, hs, m, e⟩ := hb
  cases hs with
  | nil =>
    rw [(List.append_eq_nil_iff.1 e).1] at h
    exact absurd h (BufferPacket.nil _ _)
  | @cons q qs a sent hq hs =>
    have h1 := BufferPacket.more _ _ _ sent (readable_reads hq).1
    rw [← e, List.nil_append] at h1
    obtain ⟨rfl, h2⟩ := BufferPacket.fn _ _ _ _ _ (BufferPacket.more _ _ _ m h) h1
    rw [← h2, ← List.append_assoc] at e
    rw [List.append_cancel_right e]
    exact StreamPacket.more _ _ _ r (readable_reads hq).2

theorem promising_parses {b : Bytes} {checks : Bool} {e : DeErr} (hb : Promising b) (h : SmolStream.parse checks b = .failed e) :
    False := by
  obtain ⟨qs, sent, hs, hb⟩ := hb
  rcases open_stream BufferPacket.more BufferPacket.fn BufferPacket.nil (fun _ _ h => (readable_reads h).1) (.nil b) hs hb with rfl | ⟨h1, -⟩
  · cases h
  · exact h1 (SmolStream.parse_failed h)

/-! ## writing -/

theorem Sendable.writes {p : Packet} (h : Sendable p) (io : Bool) :
    Smol.writePacket p io = (if io then .ok () else .error .io) ∧ Tokio.writePacket p io = (if io then .ok () else .error .io) := by
  obtain ⟨⟨bs, e, -⟩, bs', n, e', -⟩ := (Legal.fine h.1 h.2).written
  simp [Smol.writePacket, Tokio.writePacket, e, e']

theorem Sendable.writes_all {ps : List Packet} (h : ∀ p ∈ ps, Sendable p) (io : Bool) :
    Smol.writeAll ps io = (if io then .ok () else .error .io) := by
  induction ps with
  | nil => rfl
  | cons p ps ih =>
    obtain ⟨⟨bs, e, -⟩, -⟩ := (Legal.fine (h p (by simp)).1 (h p (by simp)).2).written
    simp only [Smol.writeAll, e]
    exact ih fun q hq => h q (by simp [hq])

theorem Tokio.writePackets_none (T : Times) (n : Nat) (ps : List Packet) : writePackets (fun _ => false) T n ps = [] := by
  induction ps generalizing n with
  | nil => rfl
  | cons p ps ih =>
    simp only [writePackets, writePacket]
    split
    · rename_i h; split at h <;> simp at h
    · exact ih _

/-! ## the simulation -/

/-- the tokio network in the place of the smol network; it may have seen less of the time -/
def twin (s : Smol) (la nw : Nat) : Tokio :=
  ⟨s.sys, s.options, true, la, s.network.map (⟨·, false⟩), if s.running then some s.await else none, nw⟩

structure Fit (s : Smol) (la nw : Nat) : Prop where
  keepAlive : s.keepAlive = s.options.keepAlive
  nonzero : s.options.keepAlive ≠ 0
  perform : s.perform = true
  action : la ≤ s.lastAction
  past : s.lastAction ≤ s.now
  clock : nw ≤ s.now
  outgoing : s.outgoing = []
  idle : s.running = false → s.await = none

def Simulated (s : Smol) (op : SmolOp) (s' : Smol) (obs : List Obs) (la nw : Nat) : Prop :=
  ∃ ops la' nw', history Tokio.step (twin s la nw) ops = (twin s' la' nw', obs) ∧ Fit s' la' nw' ∧
    ∀ r, (log Tokio.step (twin s la nw) ops).foldl tokioRxStep r = smolRxStep r (op, obs)

theorem sim_one {s s' : Smol} {op : SmolOp} {obs : List Obs} {la nw : Nat} (top : TokioOp) (la' nw' : Nat)
    (h : (twin s la nw).step top = some (twin s' la' nw', obs)) (hf : Fit s' la' nw')
    (hr : ∀ r, tokioRxStep r (top, obs) = smolRxStep r (op, obs)) : Simulated s op s' obs la nw :=
  ⟨[top], la', nw', by simp [history, h], hf, by simp [log, h, hr]⟩

/-- after some steps in which nothing was observed -/
theorem sim_two {s s' : Smol} {z : Tokio} {op : SmolOp} {obs o1 o2 : List Obs} {la nw : Nat} (t1 t2 : TokioOp) (la' nw' : Nat)
    (h1 : (twin s la nw).step t1 = some (z, o1)) (h2 : z.step t2 = some (twin s' la' nw', o2)) (ho : o1 ++ o2 = obs)
    (hf : Fit s' la' nw') (hr : ∀ r, tokioRxStep (tokioRxStep r (t1, o1)) (t2, o2) = smolRxStep r (op, obs)) :
    Simulated s op s' obs la nw :=
  ⟨[t1, t2], la', nw', by simp [history, h1, h2, ho], hf, by simp [log, h1, h2, hr]⟩

theorem sim_three {s s' : Smol} {z z' : Tokio} {op : SmolOp} {obs o1 o2 o3 : List Obs} {la nw : Nat} (t1 t2 t3 : TokioOp)
    (la' nw' : Nat) (h1 : (twin s la nw).step t1 = some (z, o1)) (h2 : z.step t2 = some (z', o2))
    (h3 : z'.step t3 = some (twin s' la' nw', o3)) (ho : o1 ++ (o2 ++ o3) = obs) (hf : Fit s' la' nw')
    (hr : ∀ r, tokioRxStep (tokioRxStep (tokioRxStep r (t1, o1)) (t2, o2)) (t3, o3) = smolRxStep r (op, obs)) :
    Simulated s op s' obs la nw :=
  ⟨[t1, t2, t3], la', nw', by simp [history, h1, h2, h3, ho], hf, by simp [log, h1, h2, h3, hr]⟩

theorem Times.ok_mono {T : Times} {a b : Nat} (h : T.ok b = true) (hab : a ≤ b) : T.ok a = true := by
  simp only [Times.ok, Bool.and_eq_true, decide_eq_true_eq] at h ⊢
  omega

theorem Times.ok_le {T : Times} {a : Nat} (h : T.ok a = true) : a ≤ T.enter ∧ T.enter ≤ T.fire ∧ T.fire ≤ T.first ∧ T.first ≤ T.second := by
  simp only [Times.ok, Bool.and_eq_true, decide_eq_true_eq] at h
  omega

/-- everything at once -/
def instant (t : Nat) : Times := ⟨t, t, t, t⟩

theorem instant_ok (t : Nat) : (instant t).ok t = true := by simp [instant, Times.ok]

section
variable {s s' : Smol} {la nw : Nat} {obs : List Obs}

theorem sim_client {op : Op} (hf : Fit s la nw) (h : s.step (.client op) = some (s', obs)) :
    Simulated s (.client op) s' obs la nw := by
  simp only [Smol.step] at h
  split at h
  · rename_i hop
    split at h
    · rename_i sys e hs
      cases h
      refine sim_one (.client op) la nw ?_ ⟨hf.1, hf.2, hf.3, hf.4, hf.5, hf.6, hf.7, hf.8⟩ (fun r => rfl)
      simp only [Tokio.step, hop, if_true, twin, hs]
    · cases h
  · cases h

theorem sim_drop (hf : Fit s la nw) (h : s.step .dropNetwork = some (s', obs)) : Simulated s .dropNetwork s' obs la nw := by
  simp only [Smol.step] at h
  split at h
  · cases h
  · rename_i hr
    split at h
    · rename_i sys e hs
      cases h
      refine sim_one .dropNetwork la nw ?_ ⟨hf.1, hf.2, hf.3, hf.4, hf.5, hf.6, hf.7, hf.8⟩ (fun r => rfl)
      simp [Tokio.step, twin, hs, hr]
    · cases h

theorem sim_start (hf : Fit s la nw) (h : s.step .start = some (s', obs)) : Simulated s .start s' obs la nw := by
  simp only [Smol.step] at h
  split at h
  · rename_i hr
    simp at hr
    split at h
    · rename_i hn
      cases h
      refine sim_one .start la nw ?_ hf (fun r => rfl)
      simp [Tokio.step, twin, hr, hn]
    · rename_i hn
      cases h
      refine sim_one .start la nw ?_ ⟨hf.1, hf.2, hf.3, hf.4, hf.5, hf.6, hf.7, by simp⟩ (fun r => rfl)
      simp [Tokio.step, twin, hr, hn, hf.idle hr.1]
  · cases h


/-- the fields of the network while `run` executes -/
theorem sim_turn {b : SmolBranch} {io : Bool} {T : Times} (hf : Fit s la nw) (h : s.step (.turn b io T) = some (s', obs)) :
    ∃ buffer, s.network = some buffer ∧ s.running = true ∧ s.sys.alive = true ∧ T.ok s.now = true ∧ T.ok nw = true ∧
      s.lastAction ≤ T.enter ∧
      (match (generalizing := false) b with
        | .read chunk => { s with now := T.second }.onRead buffer chunk io T
        | .readError => some ({ s with now := T.second }.finish [] (.error .io))
        | .outgoing => { s with now := T.second }.onOutgoing io T
        | .timer => { s with now := T.second }.onTimer io T) = some (s', obs) := by
  simp only [Smol.step, Smol.turn] at h
  split at h
  · rename_i buffer hn
    split at h
    · rename_i hok
      simp at hok
      have := Times.ok_le hok.1.1
      exact ⟨buffer, hn, hok.2, hok.1.2, hok.1.1, Times.ok_mono hok.1.1 hf.clock, Nat.le_trans hf.past this.1, h⟩
    · cases h
  · cases h

theorem sim_readError {io : Bool} {T : Times} (hf : Fit s la nw) (h : s.step (.turn .readError io T) = some (s', obs)) :
    Simulated s (.turn .readError io T) s' obs la nw := by
  obtain ⟨buffer, hn, hr, ha, hT, hT', hl, h⟩ := sim_turn hf h
  have := Times.ok_le hT
  cases h
  refine sim_one (.turn .readError 0 io T) la T.second ?_ ⟨hf.1, hf.2, hf.3, hf.4, ?_, Nat.le_refl _, rfl, fun _ => rfl⟩ (fun r => rfl)
  · simp [Tokio.step, Tokio.turn, twin, hr, hn, hT', ha, Tokio.finish]
  · show s.lastAction ≤ T.second; omega

theorem sim_outgoing {io : Bool} {T : Times} (hf : Fit s la nw) (hq : ∀ p ∈ s.sys.queue, Sendable p)
    (h : s.step (.turn .outgoing io T) = some (s', obs)) :
    Simulated s (.turn .outgoing io T) s' obs la nw := by
  obtain ⟨buffer, hn, hr, ha, hT, hT', hl, h⟩ := sim_turn hf h
  have := Times.ok_le hT
  have p1 : s.lastAction ≤ T.second := by omega
  have key : ∀ z' o, Tokio.onOutgoing ⟨s.sys, s.options, true, la, some ⟨buffer, false⟩, some s.await, T.second⟩ io T = some (z', o) →
      (twin s la nw).step (.turn .outgoing 0 io T) = some (z', o) := by
    intro z' o hz
    simp [Tokio.step, Tokio.turn, twin, hr, hn, hT', ha, canLose_zero, hz]
  simp only [Smol.onOutgoing] at h
  split at h
  · rename_i e
    split at h
    · cases h
      refine sim_one (.turn .outgoing 0 io T) la T.second (key _ _ ?_) ⟨hf.1, hf.2, hf.3, hf.4, p1, Nat.le_refl _, rfl, fun _ => rfl⟩ (fun r => rfl)
      simp [Tokio.onOutgoing, *, Tokio.finish, twin]
    · cases h
  · rename_i p rest e
    have hp := (hq p (by simp [e])).writes io
    rw [hp.1] at h
    cases io with
    | false =>
      simp only [Bool.false_eq_true, if_false] at h
      split at h
      · rename_i sys ev hs
        cases h
        refine sim_one (.turn .outgoing 0 false T) la T.second (key _ _ ?_) ⟨hf.1, hf.2, hf.3, hf.4, p1, Nat.le_refl _, rfl, fun _ => rfl⟩ (fun r => rfl)
        simp [Tokio.onOutgoing, e, hp.2, hs, Tokio.finish, twin]
      · cases h
    | true =>
      simp only [if_true] at h
      split at h
      · rename_i sys ev hs
        split at h
        · rename_i hd
          cases h
          refine sim_one (.turn .outgoing 0 true T) T.first T.second (key _ _ ?_)
            ⟨hf.1, hf.2, hf.3, Nat.le_refl _, this.2.2.2, Nat.le_refl _, rfl, fun _ => rfl⟩ (fun r => rfl)
          simp [Tokio.onOutgoing, e, hp.2, hs, hd, Tokio.finish, twin]
        · rename_i hd
          cases h
          refine sim_one (.turn .outgoing 0 true T) T.first T.second (key _ _ ?_)
            ⟨hf.1, hf.2, hf.3, Nat.le_refl _, this.2.2.2, Nat.le_refl _, hf.outgoing, by simp [hr]⟩ (fun r => rfl)
          simp [Tokio.onOutgoing, e, hp.2, hs, hd, twin, hn, hr]
      · rename_i hs
        cases h
        refine sim_one (.turn .outgoing 0 true T) la T.second (key _ _ ?_)
          ⟨hf.1, hf.2, hf.3, hf.4, p1, Nat.le_refl _, rfl, fun _ => rfl⟩ (fun r => rfl)
        simp [Tokio.onOutgoing, e, hp.2, hs, Tokio.finish, twin]
      · rename_i hs
        cases h
        refine sim_one (.turn .outgoing 0 true T) la T.second (key _ _ ?_)
          ⟨hf.1, hf.2, hf.3, hf.4, p1, Nat.le_refl _, rfl, fun _ => rfl⟩ (fun r => rfl)
        simp [Tokio.onOutgoing, e, hp.2, hs, Tokio.finish, twin]
      · cases h

theorem sim_timer {io : Bool} {T : Times} (hf : Fit s la nw) (h : s.step (.turn .timer io T) = some (s', obs)) :
    Simulated s (.turn .timer io T) s' obs la nw := by
  obtain ⟨buffer, hn, hr, ha, hT, hT', hl, h⟩ := sim_turn hf h
  have := Times.ok_le hT
  have p1 : s.lastAction ≤ T.second := by omega
  have key : ∀ z' o, Tokio.onTimer ⟨s.sys, s.options, true, la, some ⟨buffer, false⟩, some s.await, T.second⟩ s.await io T = some (z', o) →
      (twin s la nw).step (.turn .timer 0 io T) = some (z', o) := by
    intro z' o hz
    simp [Tokio.step, Tokio.turn, twin, hr, hn, hT', ha, canLose_zero, hz]
  have hping := sendable_closed.pingReq.writes io
  have htime := sendable_closed.timeout.writes io
  have hact := hf.action
  simp only [Smol.onTimer] at h
  split at h
  · rename_i hover
    simp only [Smol.sleepOver, Smol.sleep, hf.perform, hf.keepAlive, decide_eq_true_eq, Bool.true_eq_false, if_false] at hover
    have hover' : Tokio.sleepOver ⟨s.sys, s.options, true, la, some ⟨buffer, false⟩, some s.await, T.second⟩ s.await T = true := by
      cases ea : s.await with
      | none =>
        rw [ea] at hover
        have hover : T.enter + (s.lastAction + s.options.keepAlive - T.enter) ≤ T.fire := hover
        exact decide_eq_true (show T.enter + (la + s.options.keepAlive - T.enter) ≤ T.fire by omega)
      | some t =>
        rw [ea] at hover
        exact decide_eq_true (show T.enter + (t + s.options.keepAlive - T.enter) ≤ T.fire from hover)
    cases ea : s.await with
    | none =>
      rw [ea] at hover' key
      simp only [ea, Option.isNone_none, hf.perform, Bool.and_self, if_true, hping.1] at h
      cases io with
      | true =>
        simp only [if_true] at h
        cases h
        refine sim_one (.turn .timer 0 true T) T.first T.second (key _ _ ?_)
          ⟨hf.1, hf.2, rfl, Nat.le_refl _, this.2.2.2, Nat.le_refl _, hf.outgoing, by simp [hr]⟩ (fun r => rfl)
        simp [Tokio.onTimer, hover', hping.2, twin, hn, hr]
      | false =>
        simp only [Bool.false_eq_true, if_false] at h
        cases h
        refine sim_one (.turn .timer 0 false T) la T.second (key _ _ ?_)
          ⟨hf.1, hf.2, rfl, hf.4, p1, Nat.le_refl _, rfl, fun _ => rfl⟩ (fun r => rfl)
        simp [Tokio.onTimer, hover', hping.2, twin, Tokio.finish]
    | some t =>
      rw [ea] at hover' key
      simp only [ea, Option.isNone_some, Bool.false_and, Bool.false_eq_true, if_false, htime.1] at h
      cases io with
      | true =>
        simp only [if_true] at h
        cases h
        refine sim_one (.turn .timer 0 true T) la T.second (key _ _ ?_)
          ⟨hf.1, hf.2, hf.3, hf.4, p1, Nat.le_refl _, rfl, fun _ => rfl⟩ (fun r => rfl)
        simp [Tokio.onTimer, hover', htime.2, twin, Tokio.finish]
      | false =>
        simp only [Bool.false_eq_true, if_false] at h
        cases h
        refine sim_one (.turn .timer 0 false T) la T.second (key _ _ ?_)
          ⟨hf.1, hf.2, hf.3, hf.4, p1, Nat.le_refl _, rfl, fun _ => rfl⟩ (fun r => rfl)
        simp [Tokio.onTimer, hover', htime.2, twin, Tokio.finish]
  · cases h

/-- after a packet without an answer the write can still fail: tokio then fails at the next read -/
theorem sim_flush {op : SmolOp} {chunk : Bytes} {io : Bool} {T : Times} {z : Tokio} {s1 : Smol} {o : List Obs} {t1 t2 : TokioOp}
    (h1 : (twin s la nw).step t1 = some (z, [])) (h2 : z.step t2 = some (twin s1 la T.second, o)) (hn : s1.network.isSome = true)
    (hnow : s1.now = T.second) (hal : s1.sys.alive = true)
    (hf : Fit s1 la T.second) (hr : s1.running = true) (hT : s1.lastAction ≤ T.first ∧ T.first ≤ T.second)
    (hs : s1.flushOutgoing o io T = (s', obs))
    (hrx : ∀ r, tokioRxStep (tokioRxStep r (t1, [])) (t2, o) = { r with bytes := r.bytes ++ chunk, packets := r.packets ++ readIn o })
    (hrx' : ∀ r obs, smolRxStep r (op, obs) = { r with bytes := r.bytes ++ chunk, packets := r.packets ++ readIn obs }) :
    Simulated s op s' obs la nw := by
  simp only [Smol.flushOutgoing, hf.outgoing, Smol.writeAll] at hs
  cases io with
  | true =>
    simp only [if_true, List.map_nil, List.append_nil] at hs
    cases hs
    refine sim_two t1 t2 la T.second h1 (h2.trans ?_) rfl ⟨hf.1, hf.2, hf.3, Nat.le_trans hf.4 hT.1, ?_, hf.6, rfl, hf.8⟩ ?_
    · rfl
    · show T.first ≤ s1.now; omega
    · intro r; rw [hrx, hrx']
  | false =>
    simp only [Bool.false_eq_true, if_false] at hs
    cases hs
    refine sim_three (o3 := [.ended (.error .io)]) t1 t2 (.turn .readError 0 false (instant T.second)) la T.second h1 h2 ?_ rfl
      ⟨hf.1, hf.2, hf.3, hf.4, hf.5, hf.6, rfl, fun _ => rfl⟩ ?_
    · obtain ⟨b, hb⟩ := Option.isSome_iff_exists.1 hn
      simp [Tokio.step, Tokio.turn, twin, hr, hb, instant_ok, Tokio.finish, hal]
      simp [instant]
    · intro r
      rw [hrx, hrx']
      simp [tokioRxStep, readIn]

theorem sim_read {chunk : Bytes} {io : Bool} {T : Times} (hf : Fit s la nw)
    (hb : ∀ b, s.network = some b → Promising (b ++ chunk)) (hp : .ended .panicked ∉ obs)
    (h : s.step (.turn (.read chunk) io T) = some (s', obs)) :
    Simulated s (.turn (.read chunk) io T) s' obs la nw := by
  obtain ⟨buffer, hn, hr, ha, hT, hT', hl, h'⟩ := sim_turn hf h
  clear h
  have h := h'
  clear h'
  have := Times.ok_le hT
  have p1 : s.lastAction ≤ T.second := by omega
  have hpr := hb buffer hn
  simp only [Smol.onRead] at h
  split at h
  · rename_i e
    subst e
    cases h
    refine sim_one (.turn .readError 0 io T) la T.second ?_ ⟨hf.1, hf.2, hf.3, hf.4, p1, Nat.le_refl _, rfl, fun _ => rfl⟩ ?_
    · simp [Tokio.step, Tokio.turn, twin, hr, hn, hT', ha, Tokio.finish]
    · intro r; simp [tokioRxStep, smolRxStep]
  · split at h
    · cases h
    · have harr : (twin s la nw).step (.arrive chunk) =
          some (⟨s.sys, s.options, true, la, some ⟨buffer ++ chunk, false⟩, some s.await, nw⟩, []) := by
        simp [Tokio.step, twin, hn, hr]
      split at h
      · rename_i p rest hparse
        have hrd : Packet.asyncRead (buffer ++ chunk) = .ok (p, rest) := promising_same hpr (SmolStream.parse_packet hparse)
        have key : ∀ z' o, Tokio.onPacket ⟨s.sys, s.options, true, la, some ⟨rest, false⟩, some s.await, T.second⟩ p io T = some (z', o) →
            Tokio.step ⟨s.sys, s.options, true, la, some ⟨buffer ++ chunk, false⟩, some s.await, nw⟩ (.turn .read 0 io T) =
              some (z', o) := by
          intro z' o hz
          simp [Tokio.step, Tokio.turn, Tokio.onRead, hT', ha, hrd, hz]
        have rx1 : ∀ o r, tokioRxStep (tokioRxStep r (.arrive chunk, [])) (.turn .read 0 io T, o) =
            { r with bytes := r.bytes ++ chunk, packets := r.packets ++ readIn o } := by
          intro o r
          simp [tokioRxStep, readIn]
        have rx2 : ∀ r o, smolRxStep r (.turn (.read chunk) io T, o) =
            { r with bytes := r.bytes ++ chunk, packets := r.packets ++ readIn o } := fun r o => rfl
        simp only [Smol.onPacket] at h
        split at h
        · refine sim_flush harr (key _ _ ?_) ?_ ?_ ?_ ?_ ?_ ?_ (Option.some.inj h) (rx1 _) rx2
          · simp [Tokio.onPacket, twin, hr]
          · rfl
          · rfl
          · exact ha
          · exact ⟨hf.1, hf.2, hf.3, hf.4, p1, Nat.le_refl _, hf.7, fun _ => rfl⟩
          · exact hr
          · exact ⟨by show s.lastAction ≤ _; omega, this.2.2.2⟩
        · cases h
          refine sim_two (.arrive chunk) (.turn .read 0 io T) la T.second harr (key _ _ rfl) rfl
            ⟨hf.1, hf.2, hf.3, hf.4, p1, Nat.le_refl _, rfl, fun _ => rfl⟩ (fun r => (rx1 _ r).trans (rx2 r _).symm)
        · rename_i n1 n2
          have hpk : ∀ z, Tokio.onPacket z p io T = (match z.sys.step (.receive p) with
              | some (sys, .received _ reply shown) =>
                let s := { z with sys := sys }
                let obs := if shown then [.read p, .delivered p] else [.read p]
                match reply with
                | none => some (s, obs)
                | some r =>
                  match Tokio.writePacket r io with
                  | .ok () => some ({ s with lastAction := T.first }, obs ++ [.wrote r T.fire T.first])
                  | .error e => some (s.finish obs (.error e))
              | some (sys, .receivedError _ e) => some ({ z with sys := sys }.finish [.read p] (.error (.handler e)))
              | some (sys, .panicked) => some ({ z with sys := sys }.finish [.read p] .panicked)
              | _ => none) := by
            intro z
            cases p <;> first | rfl | exact absurd rfl n1 | exact absurd rfl (n2 _)
          split at h
          · rename_i sys q reply shown hs
            have hal : sys.alive = true := by
              simp only [Sys.step, ha, if_true] at hs
              repeat' split at hs
              all_goals simp only [Option.some.injEq, Prod.mk.injEq, reduceCtorEq, and_false] at hs
              obtain ⟨rfl, -⟩ := hs
              rfl
            cases reply with
            | none =>
              refine sim_flush harr (key _ _ ?_) ?_ ?_ ?_ ?_ ?_ ?_ (Option.some.inj h) (rx1 _) rx2
              · rw [hpk]
                simp [twin, hr, hs]
              · rfl
              · rfl
              · exact hal
              · exact ⟨hf.1, hf.2, hf.3, hf.4, p1, Nat.le_refl _, by simp [hf.outgoing], hf.8⟩
              · exact hr
              · exact ⟨by show s.lastAction ≤ _; omega, this.2.2.2⟩
            | some a =>
              have hw := (answer_closed sendable_closed (Sys.step_answer (received_self hs)) _ rfl).writes io
              have hwa : Smol.writeAll [a] io = Smol.writePacket a io := by
                simp only [Smol.writeAll, Smol.writePacket]
              have h := Option.some.inj h
              simp only [Smol.flushOutgoing, hf.outgoing, List.nil_append, Option.toList_some, hwa, hw.1] at h
              cases io with
              | true =>
                simp only [if_true] at h
                cases h
                refine sim_two (.arrive chunk) (.turn .read 0 true T) T.first T.second harr (key _ _ ?_) rfl
                  ⟨hf.1, hf.2, hf.3, Nat.le_refl _, this.2.2.2, Nat.le_refl _, rfl, hf.8⟩ (fun r => (rx1 _ r).trans (rx2 r _).symm)
                rw [hpk]
                simp [hs, hw.2, twin, hr]
              | false =>
                simp only [Bool.false_eq_true, if_false] at h
                cases h
                refine sim_two (.arrive chunk) (.turn .read 0 false T) la T.second harr (key _ _ ?_) rfl
                  ⟨hf.1, hf.2, hf.3, hf.4, p1, Nat.le_refl _, rfl, fun _ => rfl⟩ (fun r => (rx1 _ r).trans (rx2 r _).symm)
                rw [hpk]
                simp [hs, hw.2, twin, Tokio.finish]
          · rename_i hs
            cases h
            refine sim_two (.arrive chunk) (.turn .read 0 io T) la T.second harr (key _ _ ?_) rfl
              ⟨hf.1, hf.2, hf.3, hf.4, p1, Nat.le_refl _, rfl, fun _ => rfl⟩ (fun r => (rx1 _ r).trans (rx2 r _).symm)
            rw [hpk]
            simp [hs, twin, Tokio.finish]
          · cases h
            simp [Smol.finish] at hp
          · cases h
      · cases h
        refine sim_one (.arrive chunk) la nw ?_ ⟨hf.1, hf.2, hf.3, hf.4, p1, ?_, hf.7, hf.8⟩ (fun r => rfl)
        · rw [harr]; simp [twin, hr]
        · show nw ≤ T.second
          have := hf.clock
          omega
      · exact absurd ‹_› fun h => promising_parses hpr h
      · cases h
        simp [Smol.finish] at hp

theorem sim_connect {i : SmolConnect} (hf : Fit s la nw)
    (hc : ∀ io, Smol.writePacket s.options.connectPacket io = (if io then .ok () else .error .io) ∧
      Tokio.writePacket s.options.connectPacket io = (if io then .ok () else .error .io))
    (hresend : ∀ c sys ps, s.sys.step (.connAck c) = some (sys, .connected c ps) → ∀ p ∈ ps, Sendable p)
    (hb : Promising i.chunks.flatten) (hk : ∀ c, .read (.connAck c) ∈ obs → c.serverKeepAlive = none) (hp : .connectPanicked ∉ obs)
    (h : s.step (.connect i) = some (s', obs)) : Simulated s (.connect i) s' obs la nw := by
  simp only [Smol.step, Smol.connect] at h
  split at h
  · rename_i hok
    simp at hok
    obtain ⟨⟨hT, ha⟩, hr⟩ := hok
    have hT' := Times.ok_mono hT hf.clock
    have hle := Times.ok_le hT
    have hpast := hf.past
    have p1 : s.lastAction ≤ i.times.second := by omega
    rw [(hc _).1] at h
    -- how tokio's `connect` goes
    have key : ∀ bytes eof resend flush z' o,
        (match (generalizing := false) Packet.asyncRead bytes with
          | .ok (.connAck c, rest) =>
            if c.reason = .success then
              Tokio.established ⟨s.sys, s.options, true, la, s.network.map (⟨·, false⟩), none, i.times.second⟩ c rest
                ⟨true, bytes, eof, resend, flush, i.times⟩
                ([.wrote s.options.connectPacket i.times.enter i.times.fire] ++ [.read (.connAck c)])
            else some (⟨s.sys, s.options, true, la, s.network.map (⟨·, false⟩), none, i.times.second⟩,
              [.wrote s.options.connectPacket i.times.enter i.times.fire] ++ [.read (.connAck c)] ++ [.connectFailed (.refused c.reason)])
          | .ok (p, _) => some (⟨s.sys, s.options, true, la, s.network.map (⟨·, false⟩), none, i.times.second⟩,
              [.wrote s.options.connectPacket i.times.enter i.times.fire] ++ [.read p, .connectFailed (.notConnAck p)])
          | .error (.de e) => some (⟨s.sys, s.options, true, la, s.network.map (⟨·, false⟩), none, i.times.second⟩,
              [.wrote s.options.connectPacket i.times.enter i.times.fire] ++ [.connectFailed (.deserialization e)])
          | .error .eof => if eof then some (⟨s.sys, s.options, true, la, s.network.map (⟨·, false⟩), none, i.times.second⟩,
              [.wrote s.options.connectPacket i.times.enter i.times.fire] ++ [.connectFailed .io]) else none
          | .error _ => none) = some (z', o) →
        (twin s la nw).step (.connect ⟨true, bytes, eof, resend, flush, i.times⟩) = some (z', o) := by
      intro bytes eof resend flush z' o hz
      simp only [Tokio.step, Tokio.connect, twin, hT', ha, hr, Bool.false_eq_true, if_false, Option.isNone_none, Bool.and_self, if_true,
        (hc _).2]
      split at hz <;> simp_all
    cases hio : i.connectOk with
    | false =>
      rw [hio] at h
      simp only [Bool.false_eq_true, if_false] at h
      cases h
      refine sim_one (.connect ⟨false, [], false, fun _ => false, false, i.times⟩) la i.times.second ?_
        ⟨hf.1, hf.2, hf.3, hf.4, p1, Nat.le_refl _, hf.7, hf.8⟩ (fun r => rfl)
      simp [Tokio.step, Tokio.connect, twin, hT', ha, hr, (hc _).2]
    | true =>
      rw [hio] at h
      simp only [if_true] at h
      have hread : ∀ p rest, SmolStream.read s.checks (i.chunks.length + 1) [] i.chunks = .done (p, rest, []) →
          Packet.asyncRead i.chunks.flatten = .ok (p, rest) := by
        intro p rest hd
        obtain ⟨used, e, hbp⟩ := SmolStream.read_packet hd
        rw [List.append_nil] at e
        subst e
        exact promising_same hb hbp
      split at h
      · rename_i c buffer hd
        have hrd := hread _ _ hd
        split at h
        · rename_i hc'
          have hka : c.serverKeepAlive = none := hk c (by
            simp only [Smol.established] at h
            repeat' split at h
            all_goals first | (cases h; done) | (cases h; simp))
          simp only [Smol.established, Smol.noteConnAck, hka] at h
          have hk0 : s.keepAlive ≠ 0 := by rw [hf.keepAlive]; exact hf.nonzero
          simp only [if_neg hk0] at h
          split at h
          · rename_i sys c' ps hs
            have hsend := hresend c sys ps (connected_self hs)
            rw [Sendable.writes_all hsend] at h
            cases hre : i.resendOk with
            | true =>
              rw [hre] at h
              simp only [if_true] at h
              cases h
              refine sim_one (.connect ⟨true, i.chunks.flatten, false, fun _ => true, true, i.times⟩) i.times.second i.times.second
                (key _ _ _ _ _ _ ?_) ⟨hf.1, hf.2, hf.3, Nat.le_refl _, Nat.le_refl _, Nat.le_refl _, hf.7, hf.8⟩ (fun r => ?_)
              · simp only [hrd, hc', if_true, Tokio.established, Tokio.noteConnAck, hka, hs]
                rw [Tokio.writePackets_all _ _ _ _ (fun _ => rfl) (fun p hp => by
                  obtain ⟨-, bs, n, e, -⟩ := (Legal.fine (hsend p hp).1 (hsend p hp).2).written
                  exact ⟨_, e⟩)]
                simp [twin, hr, hf.nonzero]
              · simp [tokioRxStep, smolRxStep, hasConnected]
            | false =>
              rw [hre] at h
              simp only [Bool.false_eq_true, if_false] at h
              cases h
              refine sim_one (.connect ⟨true, i.chunks.flatten, false, fun _ => false, false, i.times⟩) i.times.fire i.times.second
                (key _ _ _ _ _ _ ?_) ⟨hf.1, hf.2, hf.3, Nat.le_refl _, ?_, Nat.le_refl _, hf.7, hf.8⟩ (fun r => ?_)
              · simp only [hrd, hc', if_true, Tokio.established, Tokio.noteConnAck, hka, hs, Tokio.writePackets_none]
                simp [twin, hr, hf.nonzero]
              · show i.times.fire ≤ i.times.second; omega
              · simp [tokioRxStep, smolRxStep, hasConnected]
          · rename_i hs
            cases h
            refine sim_one (.connect ⟨true, i.chunks.flatten, false, fun _ => false, false, i.times⟩) i.times.fire i.times.second
              (key _ _ _ _ _ _ ?_) ⟨hf.1, hf.2, hf.3, Nat.le_refl _, ?_, Nat.le_refl _, hf.7, hf.8⟩ (fun r => ?_)
            · simp only [hrd, hc', if_true, Tokio.established, Tokio.noteConnAck, hka, hs]
              simp [twin, hr, hf.nonzero]
            · show i.times.fire ≤ i.times.second; omega
            · simp [tokioRxStep, smolRxStep, hasConnected]
          · cases h
            simp at hp
          · cases h
        · rename_i hc'
          cases h
          refine sim_one (.connect ⟨true, i.chunks.flatten, false, fun _ => false, false, i.times⟩) la i.times.second
            (key _ _ _ _ _ _ ?_) ⟨hf.1, hf.2, hf.3, hf.4, p1, Nat.le_refl _, hf.7, hf.8⟩ (fun r => ?_)
          · simp [hrd, hc', twin, hr]
          · simp [tokioRxStep, smolRxStep, hasConnected]
      · rename_i p rest n1 hd
        have hrd := hread _ _ hd
        cases h
        refine sim_one (.connect ⟨true, i.chunks.flatten, false, fun _ => false, false, i.times⟩) la i.times.second
          (key _ _ _ _ _ _ ?_) ⟨hf.1, hf.2, hf.3, hf.4, p1, Nat.le_refl _, hf.7, hf.8⟩ (fun r => ?_)
        · rw [hrd]
          cases p <;> first | (simp [twin, hr]; done) | exact (n1 _ rfl).elim
        · simp [tokioRxStep, smolRxStep, hasConnected]
      · cases h
      · cases h
        refine sim_one (.connect ⟨true, [], true, fun _ => false, false, i.times⟩) la i.times.second
          (key _ _ _ _ _ _ ?_) ⟨hf.1, hf.2, hf.3, hf.4, p1, Nat.le_refl _, hf.7, hf.8⟩ (fun r => ?_)
        · have : Packet.asyncRead [] = .error .eof := rfl
          simp [this, twin, hr]
        · simp [tokioRxStep, smolRxStep, hasConnected]
      · cases h
        simp at hp
      · cases h
  · cases h

end

theorem take_snoc {α : Type} (l : List α) (x : α) (n : Nat) : ∃ m, l.take n = (l ++ [x]).take m := by
  by_cases h : n ≤ l.length
  · exact ⟨n, (List.take_append_of_le_length h).symm⟩
  · refine ⟨l.length, ?_⟩
    rw [List.take_append_of_le_length (Nat.le_refl _), List.take_of_length_le (by omega), List.take_length]

theorem smol_skip {k : Bool} {o : Options} {t : Nat} {ops : List SmolOp} {op : SmolOp} (h : (smol k o t ops).step op = none) :
    smol k o t (ops ++ [op]) = smol k o t ops ∧ smolTrace k o t (ops ++ [op]) = smolTrace k o t ops ∧
      smolRx k o t (ops ++ [op]) = smolRx k o t ops := by
  have h' : Smol.step (history Smol.step (Smol.new k o t) ops).1 op = none := h
  simp only [smol, smolTrace, smolRx, Smol.runOps, history_append, history_one, h', log_append, log, List.append_nil, and_self]

theorem smolRx_snoc {k : Bool} {o : Options} {t : Nat} {ops : List SmolOp} {op : SmolOp} {s' : Smol} {obs : List Obs}
    (h : (smol k o t ops).step op = some (s', obs)) : smolRx k o t (ops ++ [op]) = smolRxStep (smolRx k o t ops) (op, obs) := by
  have h' : Smol.step (history Smol.step (Smol.new k o t) ops).1 op = some (s', obs) := h
  simp only [smolRx, log_append, log, h', List.foldl_append, List.foldl_cons, List.foldl_nil]

theorem Spec.PlainUse.before {o : Options} {checks : Bool} {t : Nat} {ops : List SmolOp} {op : SmolOp}
    (h : PlainUse o checks t (ops ++ [op])) : PlainUse o checks t ops := by
  have hsub : ∀ x ∈ smolTrace checks o t ops, x ∈ smolTrace checks o t (ops ++ [op]) := by
    intro x hx
    cases e : (smol checks o t ops).step op with
    | none => rw [(smol_skip e).2.1]; exact hx
    | some y => rw [(smol_snoc e).2]; exact List.mem_append_left _ hx
  refine ⟨h.options, fun q id p hm => h.requests q id p (hsub _ hm), h.interval, fun c hm => h.server c (hsub _ hm),
    fun i hi => h.answers i (List.mem_append_left _ hi), fun n => ?_, fun hm => h.kept (hsub _ hm),
    fun hm => h.sound.1 (hsub _ hm), fun hm => h.sound.2 (hsub _ hm)⟩
  obtain ⟨m, e⟩ := take_snoc ops op n
  rw [e]
  exact h.arrived m

theorem smol_simulated (clientId : Str) (calls : List Setter) (checks : Bool) (t : Nat) (rops : List SmolOp) :
    PlainUse (Options.build clientId calls) checks t rops.reverse →
    ∃ ops' la nw, history Tokio.step (Tokio.new (Options.build clientId calls) t) ops' =
        (twin (smol checks (Options.build clientId calls) t rops.reverse) la nw,
          smolTrace checks (Options.build clientId calls) t rops.reverse) ∧
      Fit (smol checks (Options.build clientId calls) t rops.reverse) la nw ∧
      tokioRx (Options.build clientId calls) t ops' = smolRx checks (Options.build clientId calls) t rops.reverse := by
  induction rops with
  | nil =>
    intro h
    exact ⟨[], t, t, rfl, ⟨rfl, h.interval, rfl, Nat.le_refl _, Nat.le_refl _, Nat.le_refl _, rfl, fun _ => rfl⟩, rfl⟩
  | cons op rops ih =>
    rw [List.reverse_cons]
    intro h
    obtain ⟨ops', la, nw, h1, h2, h3⟩ := ih h.before
    generalize rops.reverse = ops at *
    cases e : (smol checks (Options.build clientId calls) t ops).step op with
    | none =>
      rw [(smol_skip e).1, (smol_skip e).2.1, (smol_skip e).2.2]
      exact ⟨ops', la, nw, h1, h2, h3⟩
    | some x =>
      obtain ⟨s', obs⟩ := x
      have hsim : Simulated (smol checks (Options.build clientId calls) t ops) op s' obs la nw := by
        have hL : LegalSys (Options.build clientId calls) (smol checks (Options.build clientId calls) t ops).sys :=
          (Smol.vrun checks (Options.build clientId calls) t ops).legal h.before.requests
        have hin : ∀ x ∈ obs, x ∈ smolTrace checks (Options.build clientId calls) t (ops ++ [op]) := by
          intro x hx
          rw [(smol_snoc e).2]; exact List.mem_append_right _ hx
        cases op with
        | client op => exact sim_client h2 e
        | dropNetwork => exact sim_drop h2 e
        | start => exact sim_start h2 e
        | cancel =>
          refine absurd (hin .cancelled ?_) h.kept
          simp only [Smol.step] at e
          split at e
          · cases e; simp
          · cases e
        | connect i =>
          refine sim_connect h2 ?_ ?_ (h.answers i (by simp)) (fun c hc => h.server c (hin _ hc)) (fun hp => h.sound.1 (hin _ hp)) e
          · intro io
            rw [smol_options]
            obtain ⟨⟨bs, e, -⟩, bs', n, e', -⟩ := (sameOptions_fine h.options (.refl _) rfl).written
            have e : (Options.build clientId calls).connectPacket.write = .ok bs := e
            have e' : (Options.build clientId calls).connectPacket.asyncWrite = .ok (bs', n) := e'
            simp [Smol.writePacket, Tokio.writePacket, e, e']
          · intro c sys ps hs p hp
            rcases Sys.step_connected_stored hs p hp with ⟨q, hq, rfl⟩ | ⟨id, rfl⟩
            · exact sendable_closed.copy q (hL.held.stored q hq)
            · exact sendable_closed.pubRel id
        | turn b io T =>
          cases b with
          | read chunk =>
            refine sim_read h2 ?_ (fun hp => h.sound.2 (hin _ hp)) e
            intro b hb
            obtain ⟨rest, hst, hnet⟩ := Smol.rxed checks (Options.build clientId calls) t ops
            rw [hb] at hnet
            have hnet : b = rest := by simpa using hnet
            subst hnet
            have hp := h.arrived (ops.length + 1)
            rw [List.take_of_length_le (by simp), smolRx_snoc e] at hp
            exact promising_rest (Stream.more BufferPacket.more hst) hp
          | readError => exact sim_readError h2 e
          | outgoing => exact sim_outgoing h2 (fun p hp => hL.held.waiting p (.inr hp)) e
          | timer => exact sim_timer h2 e
      obtain ⟨ops2, la', nw', g1, g2, g3⟩ := hsim
      refine ⟨ops' ++ ops2, la', nw', ?_, ?_, ?_⟩
      · rw [history_append, h1, g1, (smol_snoc e).1, (smol_snoc e).2]
      · rw [(smol_snoc e).1]; exact g2
      · have hz : (history Tokio.step (Tokio.new (Options.build clientId calls) t) ops').1 =
          twin (smol checks (Options.build clientId calls) t ops) la nw := by rw [h1]
        rw [smolRx_snoc e, ← h3, ← g3]
        simp only [tokioRx, log_append, List.foldl_append, hz]

theorem smolRx_taken (checks : Bool) (o : Options) (t : Nat) (ops : List SmolOp) : (smolRx checks o t ops).taken = 0 := by
  have : ∀ (l : List (SmolOp × List Obs)) (r : Rx), r.taken = 0 → (l.foldl smolRxStep r).taken = 0 := by
    intro l
    induction l with
    | nil => exact fun r h => h
    | cons x l ih =>
      intro r h
      refine ih _ ?_
      obtain ⟨op, obs⟩ := x
      cases op with
      | connect i => simp only [smolRxStep]; split <;> simp [h]
      | turn b io T => cases b <;> exact h
      | _ => exact h
  exact this _ _ rfl

end Mqrstt
