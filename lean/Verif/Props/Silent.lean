import Verif.Proof.Silent
import Verif.Props.KeepAlive
import Verif.Props.Limits
/-! # C89: a server that has fallen silent is noticed -/

namespace Mqrstt.Props
open Mqrstt Mqrstt.Spec _root_.Spec

/-- **C89**, the part that holds for tokio: let a PINGREQ be unanswered at some moment (the clock after `ops1`), and let
neither a PINGRESP be received nor the run end since. Once the keep-alive interval has passed since that moment, whatever
else has been received, written or requested in the meantime, the timer's turn is due: it writes a DISCONNECT and ends
the run with a keep-alive timeout. Missing: that a PINGREQ is written. -/
theorem C89_silence_tokio_partial (o : Options) (t : Nat) (ops1 ops2 : List TokioOp) (tr2 : List Obs) (T : Times)
    (htr : tokioTrace o t (ops1 ++ ops2) = tokioTrace o t ops1 ++ tr2)
    (hping : unanswered (tokioTrace o t ops1) = true) (hnone : ∀ x ∈ tr2, endsWait x = false)
    (hclock : T.ok (tokio o t (ops1 ++ ops2)).now = true)
    (hdue : (tokio o t ops1).now + (ka o.keepAlive (tokioTrace o t (ops1 ++ ops2))).interval ≤ T.fire) :
    ∃ s', (tokio o t (ops1 ++ ops2)).step (.turn .timer 0 true T) =
      some (s', [.wrote keepAliveDisconnect T.fire T.first, .ended (.status .keepAliveTimeout)]) := by
  have hv := Tokio.vrun o t (ops1 ++ ops2)
  have hh : Hung (tokio o t (ops1 ++ ops2)).view (tokio o t ops1).now := by
    have h1 := Tokio.vrun o t ops1
    have h2 := Tokio.vrun_from (tokio o t ops1) ops2
    have e := history_append Tokio.step (Tokio.new o t) ops1 ops2
    have e1 : tokio o t (ops1 ++ ops2) = ((tokio o t ops1).runOps ops2).1 := (congrArg Prod.fst e :)
    have e2 : tokioTrace o t (ops1 ++ ops2) = tokioTrace o t ops1 ++ ((tokio o t ops1).runOps ops2).2 :=
      (congrArg Prod.snd e :)
    rw [htr, List.append_cancel_left_eq] at e2
    rw [e1]
    rw [e2] at hnone
    exact h2.hung (h1.is_hung hping) hnone
  obtain ⟨hlive, halive⟩ := hv.running hh.running
  have hk : (ka o.keepAlive (tokioTrace o t (ops1 ++ ops2))).interval = (tokio o t (ops1 ++ ops2)).options.keepAlive := by
    have := hv.ka; exact (congrArg Ka.interval this).symm
  rw [hk] at hdue
  exact Tokio.timeout_due hlive halive hclock hh hdue

/-- **C89**, the part that holds for smol: the same. -/
theorem C89_silence_smol_partial (checks : Bool) (o : Options) (t : Nat) (ops1 ops2 : List SmolOp) (tr2 : List Obs)
    (T : Times) (htr : smolTrace checks o t (ops1 ++ ops2) = smolTrace checks o t ops1 ++ tr2)
    (hping : unanswered (smolTrace checks o t ops1) = true) (hnone : ∀ x ∈ tr2, endsWait x = false)
    (hclock : T.ok (smol checks o t (ops1 ++ ops2)).now = true)
    (hdue : (smol checks o t ops1).now + (ka o.keepAlive (smolTrace checks o t (ops1 ++ ops2))).interval ≤ T.fire) :
    ∃ s', (smol checks o t (ops1 ++ ops2)).step (.turn .timer true T) =
      some (s', [.wrote keepAliveDisconnect T.fire T.first, .ended (.status .keepAliveTimeout)]) := by
  have hv := Smol.vrun checks o t (ops1 ++ ops2)
  have h1 := Smol.vrun checks o t ops1
  have h2 := Smol.vrun_from (smol checks o t ops1) (Smol.vrun_good checks o t ops1).2 ops2
  have e := history_append Smol.step (Smol.new checks o t) ops1 ops2
  have e1 : smol checks o t (ops1 ++ ops2) = ((smol checks o t ops1).runOps ops2).1 := (congrArg Prod.fst e :)
  have e2 : smolTrace checks o t (ops1 ++ ops2) = smolTrace checks o t ops1 ++ ((smol checks o t ops1).runOps ops2).2 :=
    (congrArg Prod.snd e :)
  have hh : Hung (smol checks o t (ops1 ++ ops2)).view (smol checks o t ops1).now := by
    rw [htr, List.append_cancel_left_eq] at e2
    rw [e1]
    rw [e2] at hnone
    exact h2.hung (h1.is_hung hping) hnone
  obtain ⟨hlive, halive⟩ := hv.running hh.running
  have hk : (ka o.keepAlive (smolTrace checks o t (ops1 ++ ops2))).interval = (smol checks o t (ops1 ++ ops2)).keepAlive := by
    have := hv.ka; exact (congrArg Ka.interval this).symm
  have hp : (smol checks o t (ops1 ++ ops2)).perform = true := by
    have hp := hv.pinged
    refine hp ?_
    show unanswered (smolTrace checks o t (ops1 ++ ops2)) = true
    rw [htr, unanswered_append, hping]
    exact unanswered_stays hnone
  rw [hk] at hdue
  exact Smol.timeout_due hlive halive hp hclock hh hdue

/-- the hypotheses can be met: a ping at 10 s, then a message is received and one is written, at 20 s the run ends -/
example :
    let ops1 : List TokioOp := tokioUp ++ [.turn .timer 0 true (at' (sec 11))]
    let ops2 : List TokioOp := [.arrive [0x30, 0x04, 0, 1, 97, 0], .turn .read 0 true (at' (sec 15))] ++
      sendNow (netPublish [7]) (sec 17)
    let m : Packet := .publish ⟨false, .atMostOnce, false, ⟨[97], by decide⟩, none, .empty, []⟩
    tokioTrace netOptions 0 (ops1 ++ ops2) = tokioTrace netOptions 0 ops1 ++
      [.read m, .delivered m, .user (.called (netPublish [7]) none (netPublished [7])), .user (.submitted (netPublished [7])),
        .wrote (netPublished [7]) (sec 17) (sec 17)] ∧
    unanswered (tokioTrace netOptions 0 ops1) = true ∧ (tokio netOptions 0 ops1).now = sec 11 ∧
    (ka netOptions.keepAlive (tokioTrace netOptions 0 (ops1 ++ ops2))).interval = sec 10 ∧
    (at' (sec 21)).ok (tokio netOptions 0 (ops1 ++ ops2)).now = true :=
  ⟨rfl, rfl, rfl, rfl, rfl⟩

/-! ## the violation -/

/-- a client publishes a message every 9 s -/
def chatty : Nat → List TokioOp
  | 0 => tokioUp
  | n + 1 => chatty n ++ sendNow (netPublish []) (sec (9 * (n + 1)))

/-- the same for smol -/
def smolChatty : Nat → List SmolOp
  | 0 => smolUp
  | n + 1 => smolChatty n ++
      [.client (.call (netPublish [])), .client (.submit 0), .turn .outgoing true (at' (sec (9 * (n + 1))))]

/-- what is observed of it -/
def chattyObs : Nat → List Obs
  | 0 => []
  | n + 1 => chattyObs n ++ [.user (.called (netPublish []) none (netPublished [])), .user (.submitted (netPublished [])),
      .wrote (netPublished []) (sec (9 * (n + 1))) (sec (9 * (n + 1)))]

/-- the three steps of the session for one more message -/
theorem chatty_sys (s : Sys) (ha : s.alive = true) (hq : s.queue = []) (hp : s.pending = [])
    (hc : s.pool.closed = false) (hm : s.maxPacketSize = maximumPacketSize) :
    s.step (.call (netPublish [])) =
      some ({ s with pending := [netPublished []] }, .called (netPublish []) none (netPublished [])) ∧
    { s with pending := [netPublished []] }.step (.submit 0) =
      some ({ s with queue := [netPublished []] }, .submitted (netPublished [])) ∧
    { s with queue := [netPublished []] }.step (.write true) = some (s, .written (netPublished [])) := by
  obtain ⟨⟨st, cs⟩, mx, pe, qu, al⟩ := s
  simp only at ha hq hp hm
  subst ha hq hp hm
  refine ⟨?_, rfl, rfl⟩
  simp only [Sys.step, Sys.call, hc, if_false, Bool.false_eq_true]
  rfl

/-- one more message -/
theorem chatty_step (s : Tokio) (m : Nat) (hr : s.run = some none) (hn : s.network = some ⟨[], false⟩)
    (ha : s.sys.alive = true) (hq : s.sys.queue = []) (hp : s.sys.pending = []) (hc : s.sys.pool.closed = false)
    (hm : s.sys.maxPacketSize = maximumPacketSize) (ht : s.now ≤ m) :
    s.runOps (sendNow (netPublish []) m) = ({ s with lastAction := m, now := m },
      [.user (.called (netPublish []) none (netPublished [])), .user (.submitted (netPublished [])),
        .wrote (netPublished []) m m]) := by
  obtain ⟨h1, h2, h3⟩ := chatty_sys s.sys ha hq hp hc hm
  obtain ⟨sys, opt, pf, la, nw, rn, now⟩ := s
  simp only at hr hn ha ht h1 h2 h3
  subst hr hn
  have hT : Times.ok (at' m) now = true := by simp [Times.ok, at', ht]
  have ha' : Sys.alive { sys with queue := [netPublished []] } = true := ha
  have hw : Tokio.writePacket (netPublished []) true = .ok () := rfl
  have hd : (netPublished []).isDisconnect = false := rfl
  simp only [Tokio.runOps, sendNow, history, Tokio.step, Op.ofClient, if_true, h1, h2, Tokio.turn, hT, ha',
    Bool.and_self, canLose_zero, Tokio.onOutgoing, hw, h3, hd]
  simp only [ha, Bool.and_self, if_true, Bool.false_eq_true, if_false]
  rfl

/-- the same for smol -/
theorem smolChatty_step (s : Smol) (m : Nat) (b : Bytes) (hr : s.running = true) (hn : s.network = some b)
    (ha : s.sys.alive = true) (hq : s.sys.queue = []) (hp : s.sys.pending = []) (hc : s.sys.pool.closed = false)
    (hm : s.sys.maxPacketSize = maximumPacketSize) (ht : s.now ≤ m) :
    s.runOps [.client (.call (netPublish [])), .client (.submit 0), .turn .outgoing true (at' m)] =
      ({ s with lastAction := m, now := m },
        [.user (.called (netPublish []) none (netPublished [])), .user (.submitted (netPublished [])),
          .wrote (netPublished []) m m]) := by
  obtain ⟨h1, h2, h3⟩ := chatty_sys s.sys ha hq hp hc hm
  obtain ⟨ck, sys, opt, ka, pf, la, aw, og, nw, rn, now⟩ := s
  simp only at hr hn ha ht h1 h2 h3
  subst hr hn
  have hT : Times.ok (at' m) now = true := by simp [Times.ok, at', ht]
  have ha' : Sys.alive { sys with queue := [netPublished []] } = true := ha
  have hw : Smol.writePacket (netPublished []) true = .ok () := rfl
  have hd : (netPublished []).isDisconnect = false := rfl
  simp only [Smol.runOps, history, Smol.step, Op.ofClient, if_true, h1, h2, Smol.turn, hT, ha',
    Bool.and_self, Smol.onOutgoing, hw, h3, hd]
  simp only [ha, Bool.and_self, if_true, Bool.false_eq_true, if_false]
  rfl

theorem sec_le {a b : Nat} (h : a ≤ b) : sec a ≤ sec b := by
  unfold sec
  exact Nat.mul_le_mul_right _ h

/-- **C89 is false of the code** (tokio): the keep-alive interval is 10 s, the server falls silent after its CONNACK, and
the client publishes a message every 9 s. However long this goes on, `run` goes on executing: no PINGREQ has been written,
nothing has been received, and the timer cannot have its turn for another 10 s. -/
theorem C89_silence_tokio_violated (n : Nat) :
    tokioTrace netOptions 0 (chatty n) = tokioTrace netOptions 0 tokioUp ++ chattyObs n ∧
    (∀ x ∈ chattyObs n, isRead x = false ∧ ∀ a b, x ≠ .wrote .pingReq a b) ∧
    isRunning (tokioTrace netOptions 0 (chatty n)) = true ∧
    (ka netOptions.keepAlive (tokioTrace netOptions 0 (chatty n))).on = true ∧
    (ka netOptions.keepAlive (tokioTrace netOptions 0 (chatty n))).interval = sec 10 ∧
    sec (9 * n) ≤ (tokio netOptions 0 (chatty n)).now ∧
    ∀ T : Times, T.fire < sec (9 * n) + sec 10 → ∀ k io, (tokio netOptions 0 (chatty n)).step (.turn .timer k io T) = none := by
  have key : tokioTrace netOptions 0 (chatty n) = tokioTrace netOptions 0 tokioUp ++ chattyObs n ∧
      tokio netOptions 0 (chatty n) = { tokio netOptions 0 tokioUp with
        lastAction := max 1 (sec (9 * n)), now := max 1 (sec (9 * n)) } := by
    induction n with
    | zero => exact ⟨rfl, rfl⟩
    | succ n ih =>
      obtain ⟨h1, h2⟩ := ih
      have e := history_append Tokio.step (Tokio.new netOptions 0) (chatty n) (sendNow (netPublish []) (sec (9 * (n + 1))))
      have hpos : 1 ≤ sec (9 * (n + 1)) := Nat.le_trans (by decide : 1 ≤ sec 9) (sec_le (by omega))
      have hle : sec (9 * n) ≤ sec (9 * (n + 1)) := sec_le (by omega)
      have hs := chatty_step (tokio netOptions 0 (chatty n)) (sec (9 * (n + 1))) (by rw [h2]; rfl) (by rw [h2]; rfl)
        (by rw [h2]; rfl) (by rw [h2]; rfl) (by rw [h2]; rfl) (by rw [h2]; rfl) (by rw [h2]; rfl)
        (by rw [h2]; exact Nat.max_le.2 ⟨hpos, hle⟩)
      have e1 : tokio netOptions 0 (chatty (n + 1)) =
        ((tokio netOptions 0 (chatty n)).runOps (sendNow (netPublish []) (sec (9 * (n + 1))))).1 := (congrArg Prod.fst e :)
      have e2 : tokioTrace netOptions 0 (chatty (n + 1)) = tokioTrace netOptions 0 (chatty n) ++
        ((tokio netOptions 0 (chatty n)).runOps (sendNow (netPublish []) (sec (9 * (n + 1))))).2 := (congrArg Prod.snd e :)
      rw [e1, e2, hs, h1, Nat.max_eq_right hpos]
      refine ⟨?_, ?_⟩
      · rw [List.append_assoc]; rfl
      · rw [h2]
  obtain ⟨h1, h2⟩ := key
  have hv := Tokio.vrun netOptions 0 (chatty n)
  have hka := hv.ka
  refine ⟨h1, ?_, ?_, ?_, ?_, ?_, ?_⟩
  · clear h1 h2 hv hka
    induction n with
    | zero => intro x hx; cases hx
    | succ n ih =>
      intro x hx
      rcases List.mem_append.1 hx with hx | hx
      · exact ih x hx
      · simp only [List.mem_cons, List.not_mem_nil, or_false] at hx
        rcases hx with rfl | rfl | rfl <;> exact ⟨rfl, fun a b h => by cases h⟩
  · refine hv.up.2.symm.trans ?_
    show (tokio netOptions 0 (chatty n)).run.isSome = true
    rw [h2]; rfl
  · refine (congrArg Ka.on hka).symm.trans ?_
    show (tokio netOptions 0 (chatty n)).perform = true
    rw [h2]; rfl
  · refine (congrArg Ka.interval hka).symm.trans ?_
    show (tokio netOptions 0 (chatty n)).options.keepAlive = sec 10
    rw [h2]; rfl
  · rw [h2]; exact Nat.le_max_right _ _
  · intro T hT k io
    apply Tokio.timer_early
    · rw [h2]; rfl
    · rw [h2]
      exact Nat.lt_of_lt_of_le hT (Nat.add_le_add_right (Nat.le_max_right _ _) _)

/-- **C89 is false of the code** (smol): the same. -/
theorem C89_silence_smol_violated (n : Nat) :
    smolTrace true netOptions 0 (smolChatty n) = smolTrace true netOptions 0 smolUp ++ chattyObs n ∧
    isRunning (smolTrace true netOptions 0 (smolChatty n)) = true ∧
    (ka netOptions.keepAlive (smolTrace true netOptions 0 (smolChatty n))).on = true ∧
    (ka netOptions.keepAlive (smolTrace true netOptions 0 (smolChatty n))).interval = sec 10 ∧
    sec (9 * n) ≤ (smol true netOptions 0 (smolChatty n)).now ∧
    ∀ T : Times, T.fire < sec (9 * n) + sec 10 → ∀ io,
      (smol true netOptions 0 (smolChatty n)).step (.turn .timer io T) = none := by
  have key : smolTrace true netOptions 0 (smolChatty n) = smolTrace true netOptions 0 smolUp ++ chattyObs n ∧
      smol true netOptions 0 (smolChatty n) = { smol true netOptions 0 smolUp with
        lastAction := max 1 (sec (9 * n)), now := max 1 (sec (9 * n)) } := by
    induction n with
    | zero => exact ⟨rfl, rfl⟩
    | succ n ih =>
      obtain ⟨h1, h2⟩ := ih
      have e := history_append Smol.step (Smol.new true netOptions 0) (smolChatty n)
        [.client (.call (netPublish [])), .client (.submit 0), .turn .outgoing true (at' (sec (9 * (n + 1))))]
      have hpos : 1 ≤ sec (9 * (n + 1)) := Nat.le_trans (by decide : 1 ≤ sec 9) (sec_le (by omega))
      have hle : sec (9 * n) ≤ sec (9 * (n + 1)) := sec_le (by omega)
      have hs := smolChatty_step (smol true netOptions 0 (smolChatty n)) (sec (9 * (n + 1))) [] (by rw [h2]; rfl)
        (by rw [h2]; rfl) (by rw [h2]; rfl) (by rw [h2]; rfl) (by rw [h2]; rfl) (by rw [h2]; rfl) (by rw [h2]; rfl)
        (by rw [h2]; exact Nat.max_le.2 ⟨hpos, hle⟩)
      have e1 : smol true netOptions 0 (smolChatty (n + 1)) = ((smol true netOptions 0 (smolChatty n)).runOps
        [.client (.call (netPublish [])), .client (.submit 0), .turn .outgoing true (at' (sec (9 * (n + 1))))]).1 :=
        (congrArg Prod.fst e :)
      have e2 : smolTrace true netOptions 0 (smolChatty (n + 1)) = smolTrace true netOptions 0 (smolChatty n) ++
        ((smol true netOptions 0 (smolChatty n)).runOps
        [.client (.call (netPublish [])), .client (.submit 0), .turn .outgoing true (at' (sec (9 * (n + 1))))]).2 :=
        (congrArg Prod.snd e :)
      rw [e1, e2, hs, h1, Nat.max_eq_right hpos]
      refine ⟨?_, ?_⟩
      · rw [List.append_assoc]; rfl
      · rw [h2]
  obtain ⟨h1, h2⟩ := key
  have hv := Smol.vrun true netOptions 0 (smolChatty n)
  have hka := hv.ka
  refine ⟨h1, ?_, ?_, ?_, ?_, ?_⟩
  · refine hv.up.2.symm.trans ?_
    show (smol true netOptions 0 (smolChatty n)).running = true
    rw [h2]; rfl
  · refine (congrArg Ka.on hka).symm.trans ?_
    show (smol true netOptions 0 (smolChatty n)).perform = true
    rw [h2]; rfl
  · refine (congrArg Ka.interval hka).symm.trans ?_
    show (smol true netOptions 0 (smolChatty n)).keepAlive = sec 10
    rw [h2]; rfl
  · rw [h2]; exact Nat.le_max_right _ _
  · intro T hT io
    apply Smol.timer_early
    · rw [h2]; rfl
    · rw [h2]; rfl
    · rw [h2]
      exact Nat.lt_of_lt_of_le hT (Nat.add_le_add_right (Nat.le_max_right _ _) _)

end Mqrstt.Props
