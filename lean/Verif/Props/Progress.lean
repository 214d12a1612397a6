import Verif.Proof.Fair
import Verif.Props.Network
/-!
# Progress (C57)
-/

namespace Mqrstt.Props
open Mqrstt Mqrstt.Spec _root_.Spec

/-! ## the next packet -/

/-- **C57**, the part that holds: whenever `run` executes and packets wait in the queue, a turn of the loop can write the
first of them; it leaves the queue, the others stay, and `run` goes on unless it was a DISCONNECT. Missing: a packet
that cannot be encoded, and a publish with an identifier above the receive maximum. (tokio) -/
theorem C57_next_tokio_partial (o : Options) (t : Nat) (ops : List TokioOp) (p : Packet) (rest : List Packet) (T : Times)
    (hrun : isRunning (tokioTrace o t ops) = true) (hq : (tokio o t ops).sys.queue = p :: rest)
    (hT : T.ok (tokio o t ops).now = true) (henc : ∃ e, p.asyncWrite = .ok e) (hid : ¬ BeyondReceiveMax o p) :
    ∃ s', (tokio o t ops).step (.turn .outgoing 0 true T) = some (s', .wrote p T.fire T.first ::
        if p.isDisconnect then [.ended (.status .outgoingDisconnect)] else []) ∧
      s'.sys.queue = rest ∧ s'.now = T.second := by
  have hv := Tokio.vrun o t ops
  have hr : (tokio o t ops).run.isSome = true := by
    have := hv.up.2.trans hrun
    simpa [Tokio.view, tokio] using this
  obtain ⟨hl, ha⟩ := hv.running_ready (hv.up.2.trans hrun)
  have ha : (tokio o t ops).sys.alive = true := ha
  have hl : (tokio o t ops).network.isSome = true := hl
  obtain ⟨s', hs, hq', -⟩ := head_written hv ha hq hid
  have hs : (tokio o t ops).sys.step (.write true) = some (s', .written p) := hs
  obtain ⟨e, henc⟩ := henc
  obtain ⟨aw, hr⟩ := Option.isSome_iff_exists.1 hr
  obtain ⟨c, hl⟩ := Option.isSome_iff_exists.1 hl
  simp only [Tokio.step, Tokio.turn, hr, hl, hT, ha, Bool.and_self, if_true, canLose_zero, Tokio.onOutgoing, hq,
    Tokio.writePacket, henc, hs]
  cases p.isDisconnect <;> exact ⟨_, rfl, hq', rfl⟩

/-- **C57**, the part that holds. (smol) -/
theorem C57_next_smol_partial (k : Bool) (o : Options) (t : Nat) (ops : List SmolOp) (p : Packet) (rest : List Packet)
    (T : Times) (hrun : isRunning (smolTrace k o t ops) = true) (hq : (smol k o t ops).sys.queue = p :: rest)
    (hT : T.ok (smol k o t ops).now = true) (henc : ∃ e, p.write = .ok e) (hid : ¬ BeyondReceiveMax o p) :
    ∃ s', (smol k o t ops).step (.turn .outgoing true T) = some (s', .wrote p T.fire T.first ::
        if p.isDisconnect then [.ended (.status .outgoingDisconnect)] else []) ∧
      s'.sys.queue = rest ∧ s'.now = T.second := by
  have hv := Smol.vrun k o t ops
  have hr : (smol k o t ops).running = true := hv.up.2.trans hrun
  obtain ⟨hl, ha⟩ := hv.running_ready (hv.up.2.trans hrun)
  have ha : (smol k o t ops).sys.alive = true := ha
  have hl : (smol k o t ops).network.isSome = true := hl
  obtain ⟨s', hs, hq', -⟩ := head_written hv ha hq hid
  have hs : (smol k o t ops).sys.step (.write true) = some (s', .written p) := hs
  obtain ⟨e, henc⟩ := henc
  obtain ⟨c, hl⟩ := Option.isSome_iff_exists.1 hl
  simp only [Smol.step, Smol.turn, hr, hl, hT, ha, Bool.and_self, if_true, Smol.onOutgoing, hq,
    Smol.writePacket, henc, hs]
  cases p.isDisconnect <;> exact ⟨_, rfl, hq', rfl⟩

/-! ## the whole queue -/

/-- **C57**, the part that holds: as many turns as there are packets in front of the queue write exactly these packets, in
order, and nothing else; `run` goes on. (tokio) -/
theorem C57_drained_tokio_partial (o : Options) (t : Nat) (ps rest : List Packet) (Ts : List Times) (ops : List TokioOp)
    (hrun : isRunning (tokioTrace o t ops) = true) (hq : (tokio o t ops).sys.queue = ps ++ rest)
    (hlen : Ts.length = ps.length) (hT : Clock (tokio o t ops).now Ts)
    (hok : ∀ p ∈ ps, p.isDisconnect = false ∧ (∃ e, p.asyncWrite = .ok e) ∧ ¬ BeyondReceiveMax o p) :
    let ops' := ops ++ Ts.map fun T => .turn .outgoing 0 true T
    tokioTrace o t ops' = tokioTrace o t ops ++ writtenAt ps Ts ∧ (tokio o t ops').sys.queue = rest ∧
      isRunning (tokioTrace o t ops') = true := by
  induction ps generalizing ops Ts with
  | nil =>
    obtain rfl := List.length_eq_zero_iff.1 hlen
    simpa [writtenAt] using ⟨hq, hrun⟩
  | cons p ps ih =>
    match Ts, hlen, hT with
    | T :: Ts, hlen, hT =>
      obtain ⟨hd, henc, hid⟩ := hok p (by simp)
      obtain ⟨s', hs, hq', hn⟩ := C57_next_tokio_partial o t ops p (ps ++ rest) T hrun hq hT.1 henc hid
      obtain ⟨h1, h2⟩ := tokio_snoc hs
      simp only [hd, Bool.false_eq_true, if_false] at h2
      have := ih Ts (ops ++ [.turn .outgoing 0 true T])
        (by rw [h2]; simpa [isRunning, runStep] using hrun) (by rw [h1]; exact hq') (by simpa using hlen)
        (by rw [h1, hn]; exact hT.2) (fun p hp => hok p (by simp [hp]))
      simpa [h2, writtenAt] using this

/-- **C57**, the part that holds. (smol) -/
theorem C57_drained_smol_partial (k : Bool) (o : Options) (t : Nat) (ps rest : List Packet) (Ts : List Times)
    (ops : List SmolOp)
    (hrun : isRunning (smolTrace k o t ops) = true) (hq : (smol k o t ops).sys.queue = ps ++ rest)
    (hlen : Ts.length = ps.length) (hT : Clock (smol k o t ops).now Ts)
    (hok : ∀ p ∈ ps, p.isDisconnect = false ∧ (∃ e, p.write = .ok e) ∧ ¬ BeyondReceiveMax o p) :
    let ops' := ops ++ Ts.map fun T => .turn .outgoing true T
    smolTrace k o t ops' = smolTrace k o t ops ++ writtenAt ps Ts ∧ (smol k o t ops').sys.queue = rest ∧
      isRunning (smolTrace k o t ops') = true := by
  induction ps generalizing ops Ts with
  | nil =>
    obtain rfl := List.length_eq_zero_iff.1 hlen
    simpa [writtenAt] using ⟨hq, hrun⟩
  | cons p ps ih =>
    match Ts, hlen, hT with
    | T :: Ts, hlen, hT =>
      obtain ⟨hd, henc, hid⟩ := hok p (by simp)
      obtain ⟨s', hs, hq', hn⟩ := C57_next_smol_partial k o t ops p (ps ++ rest) T hrun hq hT.1 henc hid
      obtain ⟨h1, h2⟩ := smol_snoc hs
      simp only [hd, Bool.false_eq_true, if_false] at h2
      have := ih Ts (ops ++ [.turn .outgoing true T])
        (by rw [h2]; simpa [isRunning, runStep] using hrun) (by rw [h1]; exact hq') (by simpa using hlen)
        (by rw [h1, hn]; exact hT.2) (fun p hp => hok p (by simp [hp]))
      simpa [h2, writtenAt] using this

/-- two publishes in the queue of a running tokio and a running smol network -/
example : let ops := tokioUp ++ [.client (.call (netPublish [1])), .client (.submit 0), .client (.call (netPublish [2])),
      .client (.submit 0)]
    isRunning (tokioTrace netOptions 0 ops) = true ∧
    (tokio netOptions 0 ops).sys.queue = [netPublished [1], netPublished [2]] ++ [] ∧
    Clock (tokio netOptions 0 ops).now [at' 2, at' 3] ∧
    ∀ p ∈ [netPublished [1], netPublished [2]],
      p.isDisconnect = false ∧ (∃ e, p.asyncWrite = .ok e) ∧ ¬ BeyondReceiveMax netOptions p := by
  refine ⟨rfl, rfl, ⟨rfl, rfl, trivial⟩, ?_⟩
  intro p hp
  simp only [List.mem_cons, List.not_mem_nil, or_false] at hp
  rcases hp with rfl | rfl <;> exact ⟨rfl, ⟨_, rfl⟩, by rintro ⟨id, h, -⟩; simp at h⟩

example : let ops := smolUp ++ [.client (.call (netPublish [1])), .client (.submit 0), .client (.call (netPublish [2])),
      .client (.submit 0)]
    isRunning (smolTrace false netOptions 0 ops) = true ∧
    (smol false netOptions 0 ops).sys.queue = [netPublished [1], netPublished [2]] ++ [] ∧
    Clock (smol false netOptions 0 ops).now [at' 2, at' 3] ∧
    ∀ p ∈ [netPublished [1], netPublished [2]],
      p.isDisconnect = false ∧ (∃ e, p.write = .ok e) ∧ ¬ BeyondReceiveMax netOptions p := by
  refine ⟨rfl, rfl, ⟨rfl, rfl, trivial⟩, ?_⟩
  intro p hp
  simp only [List.mem_cons, List.not_mem_nil, or_false] at hp
  rcases hp with rfl | rfl <;> exact ⟨rfl, ⟨_, rfl⟩, by rintro ⟨id, h, -⟩; simp at h⟩

/-! ## schedules without end -/

/-- **C57**, the part that holds: on every endless schedule in which `run` goes on from some point and the loop does not
neglect the queue for ever, every packet accepted is written at some time, and those that wait together are written in
order: whatever else arrives, is called, or becomes due meanwhile. (tokio) -/
theorem C57_eventually_tokio_partial (o : Options) (t : Nat) (sched : Nat → TokioOp) (start n : Nat)
    (hrun : ∀ n, start ≤ n → isRunning (tokioTrace o t (upTo sched n)) = true) (hfair : FairTokio o t sched) (hn : start ≤ n) :
    ∃ k obs, tokioTrace o t (upTo sched (n + k)) = tokioTrace o t (upTo sched n) ++ obs ∧
      (tokio o t (upTo sched n)).sys.queue.Sublist (writtenIn obs) := by
  have hr : ∀ n, start ≤ n → (tokio o t (upTo sched n)).view.running = true := fun n h =>
    (Tokio.vrun o t (upTo sched n)).up.2.trans (hrun n h)
  obtain ⟨k, hk⟩ := drains (Q := fun n => (tokio o t (upTo sched n)).sys.queue) (O := tokioObs o t sched) (start := start)
    (fun n h => (tokio_succ o t sched n).1.queue (hr n h) (hr (n + 1) (by omega)))
    (fun n h hq => by
      obtain ⟨m, hm, h1, h2⟩ := hfair n hq
      obtain ⟨⟨s', ob⟩, h2⟩ := Option.isSome_iff_exists.1 h2
      have h3 := (tokio_snoc h2).1
      rw [← upTo_succ] at h3
      refine ⟨m, hm, ?_⟩
      have h4 := Tokio.looks_takes h1 h2 (by rw [← h3]; exact hr (m + 1) (by omega))
      simp only [tokioObs, h2, h3]
      exact h4)
    _ n hn (List.prefix_refl _)
  exact ⟨k, _, tokio_between o t sched n k, hk⟩

/-- **C57**, the part that holds. (smol) -/
theorem C57_eventually_smol_partial (c : Bool) (o : Options) (t : Nat) (sched : Nat → SmolOp) (start n : Nat)
    (hrun : ∀ n, start ≤ n → isRunning (smolTrace c o t (upTo sched n)) = true) (hfair : FairSmol c o t sched) (hn : start ≤ n) :
    ∃ k obs, smolTrace c o t (upTo sched (n + k)) = smolTrace c o t (upTo sched n) ++ obs ∧
      (smol c o t (upTo sched n)).sys.queue.Sublist (writtenIn obs) := by
  have hr : ∀ n, start ≤ n → (smol c o t (upTo sched n)).view.running = true := fun n h =>
    (Smol.vrun c o t (upTo sched n)).up.2.trans (hrun n h)
  obtain ⟨k, hk⟩ := drains (Q := fun n => (smol c o t (upTo sched n)).sys.queue) (O := smolObs c o t sched) (start := start)
    (fun n h => (smol_succ c o t sched n).1.queue (hr n h) (hr (n + 1) (by omega)))
    (fun n h hq => by
      obtain ⟨m, hm, h1, h2⟩ := hfair n hq
      obtain ⟨⟨s', ob⟩, h2⟩ := Option.isSome_iff_exists.1 h2
      have h3 := (smol_snoc h2).1
      rw [← upTo_succ] at h3
      refine ⟨m, hm, ?_⟩
      have h4 := Smol.looks_takes h1 h2 (by rw [← h3]; exact hr (m + 1) (by omega))
      simp only [smolObs, h2, h3]
      exact h4)
    _ n hn (List.prefix_refl _)
  exact ⟨k, _, smol_between c o t sched n k, hk⟩

/-- options with four identifiers -/
def fewIds : Options := Options.build ⟨[97], by decide⟩ [.receiveMax 4, .sendMax 4]

/-- for ever: a message is published, accepted, and the loop looks at the queue -/
def forEver : Nat → TokioOp
  | 0 => .connect ⟨true, plainConnAck, false, fun _ => true, true, at' 1⟩
  | 1 => .start
  | n + 2 => match n % 3 with
    | 0 => .client (.call (demoPublish .atMostOnce))
    | 1 => .client (.submit 0)
    | _ => .turn .outgoing 0 true (at' 2)

theorem forEver_0 (k : Nat) : forEver (5 + 3 * k) = .client (.call (demoPublish .atMostOnce)) := by
  rw [show 5 + 3 * k = (3 + 3 * k) + 2 by omega, forEver, show (3 + 3 * k) % 3 = 0 by omega]
  rfl

theorem forEver_1 (k : Nat) : forEver (5 + 3 * k + 1) = .client (.submit 0) := by
  rw [show 5 + 3 * k + 1 = (4 + 3 * k) + 2 by omega, forEver, show (4 + 3 * k) % 3 = 1 by omega]
  rfl

theorem forEver_2 (k : Nat) : forEver (5 + 3 * k + 1 + 1) = .turn .outgoing 0 true (at' 2) := by
  rw [show 5 + 3 * k + 1 + 1 = (5 + 3 * k) + 2 by omega, forEver, show (5 + 3 * k) % 3 = 2 by omega]
  rfl

theorem tokio_then (a b : List TokioOp) : tokio fewIds 0 (a ++ b) = ((tokio fewIds 0 a).runOps b).1 := by
  simp only [tokio, Tokio.runOps, history_append]

theorem forEver_state (k : Nat) : tokio fewIds 0 (upTo forEver (5 + 3 * k)) = tokio fewIds 0 (upTo forEver 5) := by
  induction k with
  | zero => rfl
  | succ k ih =>
    rw [show 5 + 3 * (k + 1) = 5 + 3 * k + 1 + 1 + 1 by omega, upTo_succ, upTo_succ, upTo_succ, forEver_0, forEver_1, forEver_2,
      List.append_assoc, List.append_assoc, tokio_then, ih]
    rfl

theorem forEver_states (n : Nat) (hn : 5 ≤ n) : ∃ k r, n = 5 + 3 * k + r ∧ r < 3 :=
  ⟨(n - 5) / 3, (n - 5) % 3, by omega, Nat.mod_lt _ (by omega)⟩

theorem forEver_at1 (k : Nat) : tokio fewIds 0 (upTo forEver (5 + 3 * k + 1)) = tokio fewIds 0 (upTo forEver 6) := by
  rw [upTo_succ, forEver_0, tokio_then, forEver_state]
  rfl

theorem forEver_at2 (k : Nat) : tokio fewIds 0 (upTo forEver (5 + 3 * k + 1 + 1)) = tokio fewIds 0 (upTo forEver 7) := by
  rw [upTo_succ, forEver_1, tokio_then, forEver_at1]
  rfl

/-- an endless run in which the queue is filled and emptied again and again -/
example : (∀ n, 5 ≤ n → isRunning (tokioTrace fewIds 0 (upTo forEver n)) = true) ∧ FairTokio fewIds 0 forEver ∧
    (∀ k, (tokio fewIds 0 (upTo forEver (7 + 3 * k))).sys.queue.length = 1) := by
  refine ⟨?_, ?_, ?_⟩
  · intro n hn
    refine (Tokio.vrun fewIds 0 (upTo forEver n)).up.2.symm.trans ?_
    show (tokio fewIds 0 (upTo forEver n)).view.running = true
    obtain ⟨k, r, rfl, hr⟩ := forEver_states n hn
    match r with
    | 0 => rw [Nat.add_zero, forEver_state]; rfl
    | 1 => rw [forEver_at1]; rfl
    | 2 => rw [← Nat.add_assoc (5 + 3 * k) 1 1, forEver_at2]; rfl
  · intro n _
    refine ⟨5 + 3 * n + 1 + 1, by omega, ?_, ?_⟩
    · rw [forEver_2]; exact trivial
    · rw [forEver_2, forEver_at2]; rfl
  · intro k
    rw [show 7 + 3 * k = 5 + 3 * k + 1 + 1 by omega, forEver_at2]
    rfl

/-- for ever: a message is published, accepted, and the loop looks at the queue -/
def forEverSmol : Nat → SmolOp
  | 0 => .connect ⟨true, [plainConnAck], true, at' 1⟩
  | 1 => .start
  | n + 2 => match n % 3 with
    | 0 => .client (.call (demoPublish .atMostOnce))
    | 1 => .client (.submit 0)
    | _ => .turn .outgoing true (at' 2)

theorem forEverSmol_0 (k : Nat) : forEverSmol (5 + 3 * k) = .client (.call (demoPublish .atMostOnce)) := by
  rw [show 5 + 3 * k = (3 + 3 * k) + 2 by omega, forEverSmol, show (3 + 3 * k) % 3 = 0 by omega]
  rfl

theorem forEverSmol_1 (k : Nat) : forEverSmol (5 + 3 * k + 1) = .client (.submit 0) := by
  rw [show 5 + 3 * k + 1 = (4 + 3 * k) + 2 by omega, forEverSmol, show (4 + 3 * k) % 3 = 1 by omega]
  rfl

theorem forEverSmol_2 (k : Nat) : forEverSmol (5 + 3 * k + 1 + 1) = .turn .outgoing true (at' 2) := by
  rw [show 5 + 3 * k + 1 + 1 = (5 + 3 * k) + 2 by omega, forEverSmol, show (5 + 3 * k) % 3 = 2 by omega]
  rfl

theorem smol_then (a b : List SmolOp) : smol true fewIds 0 (a ++ b) = ((smol true fewIds 0 a).runOps b).1 := by
  simp only [smol, Smol.runOps, history_append]

theorem forEverSmol_state (k : Nat) : smol true fewIds 0 (upTo forEverSmol (5 + 3 * k)) = smol true fewIds 0 (upTo forEverSmol 5) := by
  induction k with
  | zero => rfl
  | succ k ih =>
    rw [show 5 + 3 * (k + 1) = 5 + 3 * k + 1 + 1 + 1 by omega, upTo_succ, upTo_succ, upTo_succ, forEverSmol_0, forEverSmol_1, forEverSmol_2,
      List.append_assoc, List.append_assoc, smol_then, ih]
    rfl

theorem forEverSmol_states (n : Nat) (hn : 5 ≤ n) : ∃ k r, n = 5 + 3 * k + r ∧ r < 3 :=
  ⟨(n - 5) / 3, (n - 5) % 3, by omega, Nat.mod_lt _ (by omega)⟩

theorem forEverSmol_at1 (k : Nat) : smol true fewIds 0 (upTo forEverSmol (5 + 3 * k + 1)) = smol true fewIds 0 (upTo forEverSmol 6) := by
  rw [upTo_succ, forEverSmol_0, smol_then, forEverSmol_state]
  rfl

theorem forEverSmol_at2 (k : Nat) : smol true fewIds 0 (upTo forEverSmol (5 + 3 * k + 1 + 1)) = smol true fewIds 0 (upTo forEverSmol 7) := by
  rw [upTo_succ, forEverSmol_1, smol_then, forEverSmol_at1]
  rfl

/-- an endless run in which the queue is filled and emptied again and again -/
example : (∀ n, 5 ≤ n → isRunning (smolTrace true fewIds 0 (upTo forEverSmol n)) = true) ∧ FairSmol true fewIds 0 forEverSmol ∧
    (∀ k, (smol true fewIds 0 (upTo forEverSmol (7 + 3 * k))).sys.queue.length = 1) := by
  refine ⟨?_, ?_, ?_⟩
  · intro n hn
    refine (Smol.vrun true fewIds 0 (upTo forEverSmol n)).up.2.symm.trans ?_
    show (smol true fewIds 0 (upTo forEverSmol n)).view.running = true
    obtain ⟨k, r, rfl, hr⟩ := forEverSmol_states n hn
    match r with
    | 0 => rw [Nat.add_zero, forEverSmol_state]; rfl
    | 1 => rw [forEverSmol_at1]; rfl
    | 2 => rw [← Nat.add_assoc (5 + 3 * k) 1 1, forEverSmol_at2]; rfl
  · intro n _
    refine ⟨5 + 3 * n + 1 + 1, by omega, ?_, ?_⟩
    · rw [forEverSmol_2]; exact trivial
    · rw [forEverSmol_2, forEverSmol_at2]; rfl
  · intro k
    rw [show 7 + 3 * k = 5 + 3 * k + 1 + 1 by omega, forEverSmol_at2]
    rfl

/-! ## the counterexample -/

/-- a publish with a subscription identifier that has no encoding; the API takes it -/
def unencodable : Request := .publish ⟨[97], by decide⟩ .atMostOnce false [] { Props.empty with subIds := [268435456] }
def unencodablePacket : Packet :=
  .publish ⟨false, .atMostOnce, false, ⟨[97], by decide⟩, none, { Props.empty with subIds := [268435456] }, []⟩

/-- **C57 is violated**: the call returns `Ok`, but the packet cannot be encoded; the turn that takes it from the queue
ends `run` with an error, and the packet is gone. -/
theorem C57_not_written_violated :
    (∃ s' e, submittedIn (tokioTrace netOptions 0 (tokioUp ++ [.client (.call unencodable), .client (.submit 0)])) =
        [unencodablePacket] ∧
      (tokio netOptions 0 (tokioUp ++ [.client (.call unencodable), .client (.submit 0)])).step
        (.turn .outgoing 0 true (at' 2)) = some (s', [.ended (.error (.serialization e))]) ∧ s'.sys.queue = []) ∧
    (∃ s' e, submittedIn (smolTrace false netOptions 0 (smolUp ++ [.client (.call unencodable), .client (.submit 0)])) =
        [unencodablePacket] ∧
      (smol false netOptions 0 (smolUp ++ [.client (.call unencodable), .client (.submit 0)])).step
        (.turn .outgoing true (at' 2)) = some (s', [.ended (.error (.serialization e))]) ∧ s'.sys.queue = []) :=
  ⟨⟨_, _, rfl, rfl, rfl⟩, ⟨_, _, rfl, rfl, rfl⟩⟩

end Mqrstt.Props
