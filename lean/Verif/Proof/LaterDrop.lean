import Verif.Spec.LaterDrop
import Verif.Proof.Later
/-!
# Only differences of time matter, also where futures are dropped (C120)
-/

namespace Mqrstt
open Mqrstt.Spec

namespace Later

variable (d : Nat)

theorem sent_obs (ob : List Obs) : Obs.sent (ob.map (Later.obs d)) = Obs.sent ob := by
  unfold Obs.sent
  rw [List.filterMap_map]
  congr 1
  funext x
  cases x <;> rfl

theorem any_obs (f : Obs → Bool) (hf : ∀ x, f (Later.obs d x) = f x) (ob : List Obs) : (ob.map (Later.obs d)).any f = ob.any f := by
  induction ob with
  | nil => rfl
  | cons x ob ih => simp only [List.map_cons, List.any_cons, hf, ih]

theorem connectedIn_obs (ob : List Obs) : Obs.connectedIn (ob.map (Later.obs d)) = Obs.connectedIn ob := by
  unfold Obs.connectedIn
  rw [any_obs]
  intro x
  cases x <;> rfl

theorem writes_obs (ob : List Obs) : SmolWire.writes (ob.map (Later.obs d)) = SmolWire.writes ob := by
  unfold SmolWire.writes
  rw [any_obs, any_obs, any_obs]
  all_goals
    intro x
    cases x <;> rfl

/-! ## tokio -/

theorem tk_dropConnect (s : Tokio) (i : TokioConnect) (a : ConnectDropAt) :
    (tk d s).dropConnect { i with times := Later.times d i.times } a = tr d (s.dropConnect i a) := by
  have k : (Later.times d i.times).ok (tk d s).now = i.times.ok s.now := times_ok d i.times s.now
  have e : (tk d s).sys = s.sys := rfl
  have r : (tk d s).run.isNone = s.run.isNone := by simp [tk]
  have p : (tk d s).options = s.options := rfl
  have nt : ∀ c : ConnAck, Tokio.noteConnAck ⟨s.sys, s.options, (tk d s).perform, (tk d s).lastAction, (tk d s).network,
      (tk d s).run, (Later.times d i.times).second⟩ c (Later.times d i.times).fire =
        tk d (({ s with now := i.times.second } : Tokio).noteConnAck c i.times.fire) := fun _ => rfl
  unfold Tokio.dropConnect
  dsimp only
  rw [k, e, r, p]
  split
  · split
    · rfl
    · split
      · rename_i written
        cases written <;> simp [tk, tr, Later.obs, Later.times]
      · split
        · split
          · rename_i c' _ _ _
            rw [nt]
            rw [show (tk d (({ s with now := i.times.second } : Tokio).noteConnAck c' i.times.fire)).sys =
              (({ s with now := i.times.second } : Tokio).noteConnAck c' i.times.fire).sys from rfl]
            generalize ({ s with now := i.times.second } : Tokio).noteConnAck c' i.times.fire = t
            split
            · simp [tk, tr, Later.obs, Later.times]
            · rfl
          · rfl
        · rfl
      · split
        · split
          · rename_i n _ c' _ _ _
            rw [nt]
            rw [show (tk d (({ s with now := i.times.second } : Tokio).noteConnAck c' i.times.fire)).sys =
              (({ s with now := i.times.second } : Tokio).noteConnAck c' i.times.fire).sys from rfl]
            generalize ({ s with now := i.times.second } : Tokio).noteConnAck c' i.times.fire = t
            split
            · rw [tk_writePackets]
              simp [tk, tr, Later.obs, Later.times]
            · rfl
          · rfl
        · rfl
  · rfl

def tw (s : TokioWire) : TokioWire := { s with net := tk d s.net }

def twr (r : Option (TokioWire × List Obs)) : Option (TokioWire × List Obs) := r.map fun r => (tw d r.1, r.2.map (Later.obs d))

theorem tw_cut (s : TokioWire) (p : Packet) (k : Nat) (ob : List Obs) :
    (tw d s).cut p k (ob.map (Later.obs d)) = twr d (s.cut p k ob) := by
  unfold TokioWire.cut
  split <;> simp [tw, twr, tk, Later.obs]

theorem tw_dropRead (s : TokioWire) (c : TokioConn) (a : DropAt) : (tw d s).dropRead c a = twr d (s.dropRead c a) := by
  unfold TokioWire.dropRead
  split
  · rename_i p rest _
    dsimp only
    have e : (tw d s).net.sys = s.net.sys := rfl
    rw [e]
    split
    · split
      · simp [tw, twr, tk, Later.obs]
      · rfl
    · split
      · simp [tw, twr, tk, Later.obs]
      · rfl
    · split
      · rename_i sys _ _ shown _
        split
        · split
          · simp [tw, twr, tk, Later.obs]
          · rfl
        · cases shown
          · exact tw_cut d { s with net := { s.net with network := some { c with input := rest }, sys := sys } } _ _ [.read p]
          · exact tw_cut d { s with net := { s.net with network := some { c with input := rest }, sys := sys } } _ _ [.read p, .delivered p]
        · rfl
      · rfl
  · rfl

theorem tw_dropOutgoing (s : TokioWire) (a : DropAt) : (tw d s).dropOutgoing a = twr d (s.dropOutgoing a) := by
  unfold TokioWire.dropOutgoing
  have e : (tw d s).net.sys = s.net.sys := rfl
  rw [e]
  split
  · split
    · rename_i sys _ _
      exact tw_cut d { s with net := { s.net with sys := sys } } _ _ []
    · rfl
  · rfl

theorem tw_dropTimer (s : TokioWire) (await : Option Nat) (a : DropAt) (T : Times) :
    (tw d s).dropTimer (await.map (· + d)) a (Later.times d T) = twr d (s.dropTimer await a T) := by
  unfold TokioWire.dropTimer
  rw [show (tw d s).net = tk d s.net from rfl, tk_sleepOver, show (tk d s.net).perform = s.net.perform from rfl]
  split
  · cases a with
    | handling => rfl
    | writing k =>
      cases await with
      | none =>
        simp only [Option.map_none]
        split
        · exact tw_cut d s _ _ []
        · rfl
      | some t => exact tw_cut d s _ _ []
  · rfl

theorem tw_drop (s : TokioWire) (b : TokioBranch) (a : DropAt) (lost : Nat) (T : Times) :
    (tw d s).drop b a lost (Later.times d T) = twr d (s.drop b a lost T) := by
  unfold TokioWire.drop
  cases hr : s.net.run with
  | none => simp [tw, tk, hr, twr]
  | some w =>
    cases hn : s.net.network with
    | none => simp [tw, tk, hr, hn, twr]
    | some c =>
      have r : (tw d s).net.run = some (w.map (· + d)) := by simp [tw, tk, hr]
      have n : (tw d s).net.network = some c := hn
      have k : (Later.times d T).ok (tw d s).net.now = T.ok s.net.now := times_ok d T s.net.now
      have e : (tw d s).net.sys.alive = s.net.sys.alive := rfl
      rw [r, n]
      dsimp only
      rw [k, e]
      split
      · cases b with
        | read =>
          have := tw_dropRead d { s with net := { s.net with now := T.second, run := some w, network := some c } } c a
          simpa [tw, tk, hr, hn, Later.times] using this
        | readError => rfl
        | outgoing =>
          dsimp only
          split
          · have := tw_dropOutgoing d { s with net := { s.net with now := T.second, run := some w, network := some { c with input := c.input.drop lost } } } a
            simpa [tw, tk, hr, Later.times] using this
          · rfl
        | timer =>
          dsimp only
          split
          · have := tw_dropTimer d { s with net := { s.net with now := T.second, run := some w, network := some { c with input := c.input.drop lost } } } w a T
            simpa [tw, tk, hr, Later.times] using this
          · rfl
      · rfl

theorem tw_step (s : TokioWire) (op : TokioWireOp) : (tw d s).step (Later.tokioWire d op) = twr d (s.step op) := by
  cases op with
  | op op =>
    simp only [TokioWire.step, Later.tokioWire]
    rw [show (tw d s).net = tk d s.net from rfl, tk_step]
    cases s.net.step op with
    | none => rfl
    | some x =>
      simp only [tr, Option.map_some, twr, tw, Option.some.injEq, Prod.mk.injEq, TokioWire.mk.injEq, true_and, and_true]
      cases op <;> simp only [TokioWire.advance, Later.tokio, sent_obs, connectedIn_obs]
  | drop b a lost T => exact tw_drop d s b a lost T
  | dropConnect i a =>
    simp only [TokioWire.step, Later.tokioWire]
    rw [show (tw d s).net = tk d s.net from rfl, tk_dropConnect]
    cases s.net.dropConnect i a with
    | none => rfl
    | some x => rfl

/-! ## smol -/

theorem sm_dropConnect (s : Smol) (i : SmolConnect) (a : ConnectDropAt) :
    (sm d s).dropConnect { i with times := Later.times d i.times } a = sr d (s.dropConnect i a) := by
  have k : (Later.times d i.times).ok (sm d s).now = i.times.ok s.now := times_ok d i.times s.now
  have e : (sm d s).sys = s.sys := rfl
  have r : (sm d s).running = s.running := rfl
  have p : (sm d s).options = s.options := rfl
  have q : (sm d s).checks = s.checks := rfl
  have nt : ∀ c : ConnAck, Smol.noteConnAck ⟨s.checks, s.sys, s.options, (sm d s).keepAlive, (sm d s).perform, (sm d s).lastAction,
      (sm d s).await, (sm d s).outgoing, (sm d s).network, s.running, (Later.times d i.times).second⟩ c (Later.times d i.times).fire =
        sm d (({ s with now := i.times.second } : Smol).noteConnAck c i.times.fire) := fun _ => rfl
  unfold Smol.dropConnect
  dsimp only
  rw [k, e, r, p, q]
  split
  · split
    · rfl
    · split
      · rename_i written
        cases written <;> simp [sm, sr, Later.obs, Later.times]
      · split
        · split
          · rename_i c' _ _ _
            rw [nt]
            rw [show (sm d (({ s with now := i.times.second } : Smol).noteConnAck c' i.times.fire)).sys =
              (({ s with now := i.times.second } : Smol).noteConnAck c' i.times.fire).sys from rfl]
            generalize ({ s with now := i.times.second } : Smol).noteConnAck c' i.times.fire = t
            split
            · simp [sm, sr, Later.obs, Later.times]
            · rfl
          · rfl
        · rfl
      · split
        · split
          · rename_i c' _ _ _
            rw [nt]
            rw [show (sm d (({ s with now := i.times.second } : Smol).noteConnAck c' i.times.fire)).sys =
              (({ s with now := i.times.second } : Smol).noteConnAck c' i.times.fire).sys from rfl]
            generalize ({ s with now := i.times.second } : Smol).noteConnAck c' i.times.fire = t
            split
            · simp [sm, sr, Later.obs, Later.times]
            · rfl
          · rfl
        · rfl
  · rfl

def sw (s : SmolWire) : SmolWire := { s with net := sm d s.net }

def swr (r : Option (SmolWire × List Obs)) : Option (SmolWire × List Obs) := r.map fun r => (sw d r.1, r.2.map (Later.obs d))

theorem sw_cut (s : SmolWire) (ps : List Packet) (k : Nat) (ob : List Obs) :
    (sw d s).cut ps k (ob.map (Later.obs d)) = swr d (s.cut ps k ob) := by
  unfold SmolWire.cut
  dsimp only
  rw [show (sw d s).buffer = s.buffer from rfl]
  split <;> simp [sw, swr, sm, Later.obs]

theorem sw_dropRead (s : SmolWire) (buffer chunk : Bytes) (a : DropAt) :
    (sw d s).dropRead buffer chunk a = swr d (s.dropRead buffer chunk a) := by
  unfold SmolWire.dropRead
  have c : (sw d s).net.checks = s.net.checks := rfl
  have e : (sw d s).net.sys = s.net.sys := rfl
  have g : (sw d s).net.outgoing = s.net.outgoing := rfl
  rw [c]
  dsimp only
  rw [e, g]
  split
  · rfl
  · split
    · rename_i p rest _
      split
      · split
        · simp [sw, swr, sm, Later.obs]
        · exact sw_cut d { s with net := { s.net with network := some rest, await := none, outgoing := [] } } _ _ [.read _, .delivered _]
      · split
        · simp [sw, swr, sm, Later.obs]
        · rfl
      · split
        · rename_i sys _ reply shown _
          split
          · split
            · simp [sw, swr, sm, Later.obs]
            · rfl
          · cases shown
            · exact sw_cut d { s with net := { s.net with network := some rest, sys := sys, outgoing := [] } } _ _ [.read p]
            · exact sw_cut d { s with net := { s.net with network := some rest, sys := sys, outgoing := [] } } _ _ [.read p, .delivered p]
        · rfl
    · rfl

theorem sw_dropOutgoing (s : SmolWire) (a : DropAt) : (sw d s).dropOutgoing a = swr d (s.dropOutgoing a) := by
  unfold SmolWire.dropOutgoing
  have e : (sw d s).net.sys = s.net.sys := rfl
  rw [e]
  split
  · split
    · rename_i sys _ _
      exact sw_cut d { s with net := { s.net with sys := sys } } _ _ []
    · rfl
  · rfl

theorem sw_dropTimer (s : SmolWire) (a : DropAt) (T : Times) :
    (sw d s).dropTimer a (Later.times d T) = swr d (s.dropTimer a T) := by
  unfold SmolWire.dropTimer
  rw [show (sw d s).net = sm d s.net from rfl, sm_sleepOver, show (sm d s.net).perform = s.net.perform from rfl,
    show (sm d s.net).await.isNone = s.net.await.isNone by simp [sm]]
  split
  · split
    · split
      · exact sw_cut d s _ _ []
      · exact sw_cut d s _ _ []
    · rfl
  · rfl

theorem sw_drop (s : SmolWire) (b : SmolBranch) (a : DropAt) (T : Times) :
    (sw d s).drop b a (Later.times d T) = swr d (s.drop b a T) := by
  have n : (sw d s).net.network = s.net.network := rfl
  have k : (Later.times d T).ok (sw d s).net.now = T.ok s.net.now := times_ok d T s.net.now
  have e : (sw d s).net.sys.alive = s.net.sys.alive := rfl
  have r : (sw d s).net.running = s.net.running := rfl
  unfold SmolWire.drop
  rw [n, k, e, r]
  split
  · split
    · cases b with
      | read chunk => exact sw_dropRead d { s with net := { s.net with now := T.second } } _ chunk a
      | readError => rfl
      | outgoing => exact sw_dropOutgoing d { s with net := { s.net with now := T.second } } a
      | timer => exact sw_dropTimer d { s with net := { s.net with now := T.second } } a T
    · rfl
  · rfl

theorem sw_step (s : SmolWire) (op : SmolWireOp) : (sw d s).step (Later.smolWire d op) = swr d (s.step op) := by
  cases op with
  | op op =>
    simp only [SmolWire.step, Later.smolWire]
    rw [show (sw d s).net = sm d s.net from rfl, sm_step]
    cases s.net.step op with
    | none => rfl
    | some x =>
      have : SmolWire.advance s.wire s.buffer (Later.smol d op) (x.2.map (Later.obs d)) = SmolWire.advance s.wire s.buffer op x.2 := by
        cases op <;> simp only [SmolWire.advance, Later.smol, sent_obs, connectedIn_obs, writes_obs]
      simp only [sr, Option.map_some, swr, sw, this]
  | drop b a T => exact sw_drop d s b a T
  | dropConnect i a =>
    simp only [SmolWire.step, Later.smolWire]
    rw [show (sw d s).net = sm d s.net from rfl, sm_dropConnect]
    cases s.net.dropConnect i a with
    | none => rfl
    | some x => rfl

end Later
end Mqrstt
