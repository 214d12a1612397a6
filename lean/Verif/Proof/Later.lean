import Verif.Spec.Later
/-!
# Only differences of time matter (C120)
-/

namespace Mqrstt
open Mqrstt.Spec

namespace Later

theorem times_ok (d : Nat) (T : Times) (now : Nat) : (Later.times d T).ok (now + d) = T.ok now := by
  simp [Later.times, Times.ok]

theorem history {S O : Type} (step : S → O → Option (S × List Obs)) (f : S → S) (g : O → O) (h : Obs → Obs)
    (c : ∀ s o, step (f s) (g o) = (step s o).map fun r => (f r.1, r.2.map h)) (s : S) (ops : List O) :
    Mqrstt.history step (f s) (ops.map g) = (f (Mqrstt.history step s ops).1, (Mqrstt.history step s ops).2.map h) := by
  induction ops generalizing s with
  | nil => rfl
  | cons o ops ih =>
    simp only [List.map_cons, Mqrstt.history, c]
    cases step s o with
    | none => exact ih s
    | some r => simp only [Option.map_some, ih, List.map_append]

/-! ## tokio -/

def tk (d : Nat) (s : Tokio) : Tokio :=
  { s with lastAction := s.lastAction + d, run := s.run.map fun a => a.map (· + d), now := s.now + d }

def tr (d : Nat) (r : Option (Tokio × List Obs)) : Option (Tokio × List Obs) :=
  r.map fun r => (tk d r.1, r.2.map (Later.obs d))

variable (d : Nat)

theorem tk_finish (s : Tokio) (o : List Obs) (e : End) :
    some ((tk d s).finish (o.map (Later.obs d)) e) = tr d (some (s.finish o e)) := by
  simp [Tokio.finish, tk, tr, Later.obs]

theorem tk_onPacket (s : Tokio) (p : Packet) (io : Bool) (T : Times) :
    (tk d s).onPacket p io (Later.times d T) = tr d (s.onPacket p io T) := by
  unfold Tokio.onPacket
  split
  · simp [tk, tr, Later.obs]
  · simp [Tokio.finish, tk, tr, Later.obs]
  · have e : (tk d s).sys = s.sys := rfl
    rw [e]
    split
    · rename_i reply shown _
      cases reply with
      | none => cases shown <;> simp [tk, tr, Later.obs]
      | some r =>
        cases h : Tokio.writePacket r io <;> cases shown <;> simp [h, Tokio.finish, tk, tr, Later.obs, Later.times]
    · simp [Tokio.finish, tk, tr, Later.obs]
    · simp [Tokio.finish, tk, tr, Later.obs]
    · rfl

theorem tk_onRead (s : Tokio) (c : TokioConn) (io : Bool) (T : Times) :
    (tk d s).onRead c io (Later.times d T) = tr d (s.onRead c io T) := by
  unfold Tokio.onRead
  split
  · rename_i p rest _
    exact tk_onPacket d { s with network := some { c with input := rest } } p io T
  · simp [Tokio.finish, tk, tr, Later.obs]
  · split <;> simp [Tokio.finish, tk, tr, Later.obs]
  · simp [Tokio.finish, tk, tr, Later.obs]

theorem tk_onOutgoing (s : Tokio) (io : Bool) (T : Times) :
    (tk d s).onOutgoing io (Later.times d T) = tr d (s.onOutgoing io T) := by
  unfold Tokio.onOutgoing
  have e : (tk d s).sys = s.sys := rfl
  rw [e]
  split
  · split <;> simp [Tokio.finish, tk, tr, Later.obs]
  · split
    · split <;> simp [Tokio.finish, tk, tr, Later.obs]
    · split
      · dsimp only
        split <;> simp [Tokio.finish, tk, tr, Later.obs, Later.times]
      · simp [Tokio.finish, tk, tr, Later.obs, Later.times]
      · simp [Tokio.finish, tk, tr, Later.obs, Later.times]
      · rfl

theorem tk_sleepOver (s : Tokio) (await : Option Nat) (T : Times) :
    (tk d s).sleepOver (await.map (· + d)) (Later.times d T) = s.sleepOver await T := by
  cases await <;> simp only [Tokio.sleepOver, Tokio.deadline, tk, Later.times, Option.map] <;>
    exact decide_eq_decide.mpr (by omega)

theorem tk_onTimer (s : Tokio) (await : Option Nat) (io : Bool) (T : Times) :
    (tk d s).onTimer (await.map (· + d)) io (Later.times d T) = tr d (s.onTimer await io T) := by
  unfold Tokio.onTimer
  rw [tk_sleepOver]
  split
  · cases await with
    | none =>
      simp only [Option.map_none]
      have e : (tk d s).perform = s.perform := rfl
      rw [e]
      split
      · split <;> simp [Tokio.finish, tk, tr, Later.obs, Later.times]
      · rfl
    | some t =>
      simp only [Option.map_some]
      split <;> simp [Tokio.finish, tk, tr, Later.obs, Later.times]
  · rfl

theorem tk_turn (s : Tokio) (b : TokioBranch) (lost : Nat) (io : Bool) (T : Times) :
    (tk d s).turn b lost io (Later.times d T) = tr d (s.turn b lost io T) := by
  cases hr : s.run with
  | none => simp [Tokio.turn, tk, hr, tr]
  | some a =>
    cases hn : s.network with
    | none => simp [Tokio.turn, tk, hr, hn, tr]
    | some c =>
      have r : (tk d s).run = some (a.map (· + d)) := by simp [tk, hr]
      have n : (tk d s).network = some c := hn
      have k : (Later.times d T).ok (tk d s).now = T.ok s.now := times_ok d T s.now
      have e : (tk d s).sys = s.sys := rfl
      unfold Tokio.turn
      rw [r, n, hr, hn]
      dsimp only
      rw [k, e]
      split
      · cases b with
        | read => exact tk_onRead d { s with now := T.second, run := some a, network := some c } c io T
        | readError => exact tk_finish d { s with now := T.second, run := some a, network := some c } [] (.error .io)
        | outgoing =>
          dsimp only
          split
          · exact tk_onOutgoing d { s with now := T.second, run := some a, network := some { c with input := c.input.drop lost } } io T
          · rfl
        | timer =>
          dsimp only
          split
          · exact tk_onTimer d { s with now := T.second, run := some a, network := some { c with input := c.input.drop lost } } a io T
          · rfl
      · rfl

theorem tk_writePackets (ok : Nat → Bool) (T : Times) (i : Nat) (ps : List Packet) :
    Tokio.writePackets ok (Later.times d T) i ps = (Tokio.writePackets ok T i ps).map (Later.obs d) := by
  induction ps generalizing i with
  | nil => rfl
  | cons p ps ih =>
    simp only [Tokio.writePackets]
    split
    · rw [ih]; rfl
    · exact ih _

theorem tk_established (s : Tokio) (c : ConnAck) (rest : Bytes) (i : TokioConnect) (o : List Obs) :
    (tk d s).established c rest { i with times := Later.times d i.times } (o.map (Later.obs d)) =
      tr d (s.established c rest i o) := by
  have n : (tk d s).noteConnAck c (Later.times d i.times).fire = tk d (s.noteConnAck c i.times.fire) := rfl
  unfold Tokio.established
  dsimp only
  rw [n]
  have e : (tk d (s.noteConnAck c i.times.fire)).sys = (s.noteConnAck c i.times.fire).sys := rfl
  rw [e]
  generalize s.noteConnAck c i.times.fire = t
  split
  · rw [tk_writePackets]
    split <;> simp [tk, tr, Later.obs, Later.times]
  · simp [tk, tr, Later.obs]
  · simp [tk, tr, Later.obs]
  · rfl

theorem tk_connect (s : Tokio) (i : TokioConnect) :
    (tk d s).connect { i with times := Later.times d i.times } = tr d (s.connect i) := by
  unfold Tokio.connect
  dsimp only
  have k : (Later.times d i.times).ok (tk d s).now = i.times.ok s.now := times_ok d i.times s.now
  have e : (tk d s).sys = s.sys := rfl
  have r : (tk d s).run.isNone = s.run.isNone := by simp [tk]
  have p : (tk d s).options = s.options := rfl
  rw [k, e, r, p]
  split
  · split
    · simp [tk, tr, Later.obs, Later.times]
    · split
      · split
        · rename_i c _ _ _
          exact tk_established d { s with now := i.times.second } _ _ i
            [.wrote s.options.connectPacket i.times.enter i.times.fire, .read (.connAck c)]
        · simp [tk, tr, Later.obs, Later.times]
      · simp [tk, tr, Later.obs, Later.times]
      · simp [tk, tr, Later.obs, Later.times]
      · split <;> simp [tk, tr, Later.obs, Later.times]
      · simp [tk, tr, Later.obs, Later.times]
  · rfl

theorem tk_step (s : Tokio) (o : TokioOp) : (tk d s).step (Later.tokio d o) = tr d (s.step o) := by
  cases o with
  | client op =>
    simp only [Tokio.step, Later.tokio]
    have e : (tk d s).sys = s.sys := rfl
    rw [e]
    split
    · split <;> simp [tk, tr, Later.obs]
    · rfl
  | dropNetwork =>
    simp only [Tokio.step, Later.tokio]
    have e : (tk d s).sys = s.sys := rfl
    have r : (tk d s).run.isNone = s.run.isNone := by simp [tk]
    rw [e, r]
    split
    · split <;> simp [tk, tr, Later.obs]
    · rfl
  | connect i => exact tk_connect d s i
  | start =>
    simp only [Tokio.step, Later.tokio]
    have e : (tk d s).sys = s.sys := rfl
    have r : (tk d s).run.isNone = s.run.isNone := by simp [tk]
    have n : (tk d s).network = s.network := rfl
    rw [e, r, n]
    split
    · split <;> simp [tk, tr, Later.obs]
    · rfl
  | arrive bs =>
    simp only [Tokio.step, Later.tokio]
    have n : (tk d s).network = s.network := rfl
    rw [n]
    split
    · split <;> simp [tk, tr]
    · rfl
  | close =>
    simp only [Tokio.step, Later.tokio]
    have n : (tk d s).network = s.network := rfl
    rw [n]
    split
    · simp [tk, tr]
    · rfl
  | turn b lost io T => exact tk_turn d s b lost io T
  | cancel lost =>
    cases hr : s.run with
    | none => simp [Tokio.step, Later.tokio, tk, hr, tr]
    | some a =>
      cases hn : s.network with
      | none => simp [Tokio.step, Later.tokio, tk, hr, hn, tr]
      | some c =>
        simp only [Tokio.step, Later.tokio, tk, hr, hn, Option.map_some]
        split <;> simp [tr, tk, Later.obs]

/-! ## smol -/

def sm (s : Smol) : Smol :=
  { s with lastAction := s.lastAction + d, await := s.await.map (· + d), now := s.now + d }

def sr (r : Option (Smol × List Obs)) : Option (Smol × List Obs) :=
  r.map fun r => (sm d r.1, r.2.map (Later.obs d))

theorem sm_finish (s : Smol) (o : List Obs) (e : End) :
    some ((sm d s).finish (o.map (Later.obs d)) e) = sr d (some (s.finish o e)) := by
  simp [Smol.finish, sm, sr, Later.obs]

theorem sm_flush (s : Smol) (o : List Obs) (io : Bool) (T : Times) :
    some ((sm d s).flushOutgoing (o.map (Later.obs d)) io (Later.times d T)) = sr d (some (s.flushOutgoing o io T)) := by
  unfold Smol.flushOutgoing
  have e : (sm d s).outgoing = s.outgoing := rfl
  rw [e]
  split
  · simp [sm, sr, Later.obs, Later.times]
  · exact sm_finish d s o _

theorem sm_onPacket (s : Smol) (p : Packet) (io : Bool) (T : Times) :
    (sm d s).onPacket p io (Later.times d T) = sr d (s.onPacket p io T) := by
  unfold Smol.onPacket
  split
  · exact sm_flush d { s with await := none } [.read _, .delivered _] io T
  · simp [Smol.finish, sm, sr, Later.obs]
  · have e : (sm d s).sys = s.sys := rfl
    rw [e]
    split
    · rename_i sys p' reply shown _
      cases shown
      · exact sm_flush d { s with sys := sys, outgoing := s.outgoing ++ reply.toList } [.read p] io T
      · exact sm_flush d { s with sys := sys, outgoing := s.outgoing ++ reply.toList } [.read p, .delivered p] io T
    · simp [Smol.finish, sm, sr, Later.obs]
    · simp [Smol.finish, sm, sr, Later.obs]
    · rfl

theorem sm_onRead (s : Smol) (buffer chunk : Bytes) (io : Bool) (T : Times) :
    (sm d s).onRead buffer chunk io (Later.times d T) = sr d (s.onRead buffer chunk io T) := by
  unfold Smol.onRead
  have e : (sm d s).checks = s.checks := rfl
  rw [e]
  split
  · exact sm_finish d s [] _
  · split
    · rfl
    · dsimp only
      split
      · rename_i p rest _
        exact sm_onPacket d { s with network := some rest } p io T
      · simp [sm, sr]
      · exact sm_finish d s [] _
      · exact sm_finish d { s with sys := s.sys.die } [] _

theorem sm_onOutgoing (s : Smol) (io : Bool) (T : Times) :
    (sm d s).onOutgoing io (Later.times d T) = sr d (s.onOutgoing io T) := by
  unfold Smol.onOutgoing
  have e : (sm d s).sys = s.sys := rfl
  rw [e]
  split
  · split <;> simp [Smol.finish, sm, sr, Later.obs]
  · split
    · split <;> simp [Smol.finish, sm, sr, Later.obs]
    · split
      · dsimp only
        split <;> simp [Smol.finish, sm, sr, Later.obs, Later.times]
      · simp [Smol.finish, sm, sr, Later.obs, Later.times]
      · simp [Smol.finish, sm, sr, Later.obs, Later.times]
      · rfl

theorem sm_sleepOver (s : Smol) (T : Times) : (sm d s).sleepOver (Later.times d T) = s.sleepOver T := by
  have p : (sm d s).perform = s.perform := rfl
  unfold Smol.sleepOver Smol.sleep
  rw [p]
  cases h : s.await <;> simp only [sm, Later.times, h, Option.map] <;>
    exact decide_eq_decide.mpr (by split <;> omega)

theorem sm_onTimer (s : Smol) (io : Bool) (T : Times) :
    (sm d s).onTimer io (Later.times d T) = sr d (s.onTimer io T) := by
  have p : (sm d s).perform = s.perform := rfl
  have a : (sm d s).await.isNone = s.await.isNone := by simp [sm]
  unfold Smol.onTimer
  rw [sm_sleepOver, p, a]
  split
  · split
    · split <;> simp [Smol.finish, sm, sr, Later.obs, Later.times]
    · split <;> simp [Smol.finish, sm, sr, Later.obs, Later.times]
  · rfl

theorem sm_turn (s : Smol) (b : SmolBranch) (io : Bool) (T : Times) :
    (sm d s).turn b io (Later.times d T) = sr d (s.turn b io T) := by
  have k : (Later.times d T).ok (sm d s).now = T.ok s.now := times_ok d T s.now
  have e : (sm d s).sys = s.sys := rfl
  have r : (sm d s).running = s.running := rfl
  have n : (sm d s).network = s.network := rfl
  unfold Smol.turn
  rw [n, k, e, r]
  split
  · split
    · cases b with
      | read chunk => exact sm_onRead d { s with now := T.second } _ chunk io T
      | readError => exact sm_finish d { s with now := T.second } [] (.error .io)
      | outgoing => exact sm_onOutgoing d { s with now := T.second } io T
      | timer => exact sm_onTimer d { s with now := T.second } io T
    · rfl
  · rfl

theorem sm_established (s : Smol) (c : ConnAck) (buffer : Bytes) (i : SmolConnect) (o : List Obs) :
    (sm d s).established c buffer { i with times := Later.times d i.times } (o.map (Later.obs d)) =
      sr d (s.established c buffer i o) := by
  have n : (sm d s).noteConnAck c (Later.times d i.times).fire = sm d (s.noteConnAck c i.times.fire) := rfl
  unfold Smol.established
  dsimp only
  rw [n]
  have e : (sm d (s.noteConnAck c i.times.fire)).sys = (s.noteConnAck c i.times.fire).sys := rfl
  rw [e]
  generalize s.noteConnAck c i.times.fire = t
  split
  · split <;> simp [sm, sr, Later.obs, Later.times]
  · simp [sm, sr, Later.obs]
  · simp [sm, sr, Later.obs]
  · rfl

theorem sm_connect (s : Smol) (i : SmolConnect) :
    (sm d s).connect { i with times := Later.times d i.times } = sr d (s.connect i) := by
  unfold Smol.connect
  dsimp only
  have k : (Later.times d i.times).ok (sm d s).now = i.times.ok s.now := times_ok d i.times s.now
  have e : (sm d s).sys = s.sys := rfl
  have r : (sm d s).running = s.running := rfl
  have p : (sm d s).options = s.options := rfl
  have q : (sm d s).checks = s.checks := rfl
  rw [k, e, r, p, q]
  split
  · split
    · simp [sm, sr, Later.obs, Later.times]
    · split
      · split
        · rename_i c _ _ _
          exact sm_established d { s with now := i.times.second } _ _ i
            [.wrote s.options.connectPacket i.times.enter i.times.fire, .read (.connAck c)]
        · simp [sm, sr, Later.obs, Later.times]
      · simp [sm, sr, Later.obs, Later.times]
      · rfl
      · simp [sm, sr, Later.obs, Later.times]
      · simp [sm, sr, Later.obs, Later.times]
      · rfl
  · rfl

theorem sm_step (s : Smol) (o : SmolOp) : (sm d s).step (Later.smol d o) = sr d (s.step o) := by
  have e : (sm d s).sys = s.sys := rfl
  have r : (sm d s).running = s.running := rfl
  have n : (sm d s).network = s.network := rfl
  cases o with
  | client op =>
    simp only [Smol.step, Later.smol]
    rw [e]
    split
    · split <;> simp [sm, sr, Later.obs]
    · rfl
  | dropNetwork =>
    simp only [Smol.step, Later.smol]
    rw [e, r]
    split
    · rfl
    · split <;> simp [sm, sr, Later.obs]
  | connect i => exact sm_connect d s i
  | start =>
    simp only [Smol.step, Later.smol]
    rw [e, r, n]
    split
    · split <;> simp [sm, sr, Later.obs]
    · rfl
  | turn b io T => exact sm_turn d s b io T
  | cancel =>
    simp only [Smol.step, Later.smol]
    rw [r]
    split <;> simp [sm, sr, Later.obs]

end Later
end Mqrstt
