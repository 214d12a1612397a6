import Verif.Props.Verdict
import Verif.Props.Interrupt
/-! # What becomes of `connect` after futures have been dropped (C109) -/

namespace Mqrstt.Props
open Mqrstt Mqrstt.Spec _root_.Spec

/-- **C109, tokio (partial)**, after any history in which the futures of `run` and `connect` may also have been dropped anywhere.
Missing: as in `C109_verdict_tokio_partial`. -/
theorem C109_dropped_tokio_partial (clientId : Str) (calls : List Setter) (t : Nat) (ops : List TokioWireOp) (i : TokioConnect)
    (c : ConnAck) (answer more : Bytes)
    (hopt : ∀ c, (Options.build clientId calls).connectPacket = .connect c → LegalConnect c)
    (huse : Usable (tokioWireTrace (Options.build clientId calls) t ops))
    (hidle : isRunning (tokioWireTrace (Options.build clientId calls) t ops) = false)
    (hclients : ¬ ClientsGone (tokioWireTrace (Options.build clientId calls) t ops))
    (hclock : i.times.ok (tokioWire (Options.build clientId calls) t ops).net.now = true)
    (hans : PacketSays (.connAck c) answer) (hb : i.bytes <+: answer ++ more) :
    Announces c ((tokioWire (Options.build clientId calls) t ops).step (.op (.connect i)))
      (verdict c i.connectOk (answer.isPrefixOf i.bytes) i.eof i.flushOk) := by
  obtain ⟨h1, -, h3⟩ := VerdictDrop.tokio_kept (Options.build clientId calls) t ops
  have hr : (tokioWire (Options.build clientId calls) t ops).net.run = none := by
    have : (tokioWire (Options.build clientId calls) t ops).net.run.isSome = false := (tokio_interrupted _ t ops).2.trans hidle
    simpa using this
  exact VerdictDrop.tokio_wire_announces (VerdictDrop.tokio_announces _ clientId calls i c answer more hopt h3 (h1 huse) hr
    (fun _ hc => VerdictDrop.tokio_takes _ t ops huse hclients hc) hclock hans hb)

/-- `run` was dropped in the middle of a message; then the CONNACK resumes the session -/
def tokioTorn : List TokioWireOp := tokioReady .exactlyOnce ++ [.drop .outgoing (.writing 7) 0 (at' 2)]

example : (∀ c, resumeOptions.connectPacket = .connect c → LegalConnect c) ∧ Usable (tokioWireTrace resumeOptions 0 tokioTorn) ∧
    isRunning (tokioWireTrace resumeOptions 0 tokioTorn) = false ∧ ¬ ClientsGone (tokioWireTrace resumeOptions 0 tokioTorn) ∧
    (at' 4).ok (tokioWire resumeOptions 0 tokioTorn).net.now = true ∧
    PacketSays (.connAck ⟨true, .success, .empty⟩) resumedConnAck ∧
    verdict ⟨true, .success, .empty⟩ true (resumedConnAck.isPrefixOf resumedConnAck) false true = .accepted ∧
    .cancelled ∈ tokioWireTrace resumeOptions 0 tokioTorn := by
  obtain ⟨c, x, q, id, p, h⟩ : ∃ c x q id p, tokioWireTrace resumeOptions 0 tokioTorn = [.wrote c 1 1, .read (.connAck x),
      .delivered (.connAck x), .connected x 1, .started, .user (.called q id p), .user (.submitted p), .cancelled] :=
    ⟨_, _, _, _, _, rfl⟩
  refine ⟨resumeOptions_legal, usable_of rfl, rfl, ?_, rfl, resumed_said, rfl, ?_⟩
  · rw [h]
    simp [ClientsGone]
  · rw [h]
    simp

/-- **C109, smol (partial)**, after any history in which the futures of `run` and `connect` may also have been dropped anywhere.
Missing: as in `C109_verdict_smol_partial`. -/
theorem C109_dropped_smol_partial (clientId : Str) (calls : List Setter) (checks : Bool) (t : Nat) (ops : List SmolWireOp)
    (i : SmolConnect) (c : ConnAck) (first : UInt8) (len body : Bytes)
    (huse : Usable (smolWireTrace checks (Options.build clientId calls) t ops))
    (hidle : isRunning (smolWireTrace checks (Options.build clientId calls) t ops) = false)
    (hclients : ¬ ClientsGone (smolWireTrace checks (Options.build clientId calls) t ops))
    (hlegal : LegalUse clientId calls (smolWireTrace checks (Options.build clientId calls) t ops))
    (hclock : i.times.ok (smolWire checks (Options.build clientId calls) t ops).net.now = true)
    (hv : IsVbi len) (hb : vbiValue len = body.length) (hans : PacketSays (.connAck c) (first :: (len ++ body))) :
    (Brings i.chunks (first :: (len ++ body)) → GoodSplit (1 + len.length) body.length i.chunks →
      Announces c ((smolWire checks (Options.build clientId calls) t ops).step (.op (.connect i)))
        (verdict c i.connectOk true false i.resendOk)) ∧
    (∀ missing, Brings (i.chunks ++ [missing]) (first :: (len ++ body)) →
      GoodSplit (1 + len.length) body.length (i.chunks ++ [missing]) →
      Announces c ((smolWire checks (Options.build clientId calls) t ops).step (.op (.connect i)))
        (verdict c i.connectOk false false i.resendOk) ∧
      Announces c ((smolWire checks (Options.build clientId calls) t ops).step (.op (.connect { i with chunks := i.chunks ++ [[]] })))
        (verdict c i.connectOk false true i.resendOk)) := by
  obtain ⟨h1, -⟩ := VerdictDrop.smol_kept checks (Options.build clientId calls) t ops
  obtain ⟨hL, -, ho⟩ := smol_wire_legalSys checks t ops hlegal.requests
  obtain ⟨g1, g2⟩ := VerdictDrop.smol_announces _ clientId calls i c first len body hlegal.options ho (h1 huse)
    ((smol_interrupted checks _ t ops).2.trans hidle) hL (fun _ hc => VerdictDrop.smol_takes checks _ t ops huse hclients hc)
    hclock hv hb hans
  exact ⟨fun a b => VerdictDrop.smol_wire_announces (g1 a b), fun m a b =>
    ⟨VerdictDrop.smol_wire_announces (g2 m a b).1, VerdictDrop.smol_wire_announces (g2 m a b).2⟩⟩

/-- the same story on smol; the CONNACK in pieces of 1, 1 and 3 bytes -/
def smolTorn : List SmolWireOp := smolReady .atMostOnce ++ [.drop .outgoing (.writing 7) (at' 2)]

example : Usable (smolWireTrace true resumeOptions 0 smolTorn) ∧ isRunning (smolWireTrace true resumeOptions 0 smolTorn) = false ∧
    ¬ ClientsGone (smolWireTrace true resumeOptions 0 smolTorn) ∧
    LegalUse ⟨[97], by decide⟩ [.keepAlive (fromSecs 10), .cleanStart false, .receiveMax 4, .sendMax 4]
      (smolWireTrace true resumeOptions 0 smolTorn) ∧
    (at' 4).ok (smolWire true resumeOptions 0 smolTorn).net.now = true ∧ IsVbi [3] ∧ vbiValue [3] = 3 ∧
    PacketSays (.connAck ⟨true, .success, .empty⟩) (0x20 :: ([3] ++ [1, 0, 0])) ∧
    Brings ([[0x20], [3]] ++ [[1, 0, 0]]) (0x20 :: ([3] ++ [1, 0, 0])) ∧ GoodSplit 2 3 ([[0x20], [3]] ++ [[1, 0, 0]]) ∧
    .cancelled ∈ smolWireTrace true resumeOptions 0 smolTorn := by
  obtain ⟨c, x, p, h⟩ : ∃ c x p, smolWireTrace true resumeOptions 0 smolTorn = [.wrote c 1 1, .read (.connAck x),
      .delivered (.connAck x), .connected x 1, .started, .user (.called (demoPublish .atMostOnce) none p), .user (.submitted p),
      .cancelled] := ⟨_, _, _, rfl⟩
  refine ⟨usable_of rfl, rfl, by rw [h]; simp [ClientsGone], ⟨resumeOptions_legal, fun q id p hm => ?_, fun q hm => ?_⟩, rfl,
    (oneByte 3 (by decide)).1, (oneByte 3 (by decide)).2.1, resumed_said, ⟨by decide, ⟨[], rfl⟩, fun n hn => ?_⟩, fun n hn => ?_,
    by rw [h]; simp⟩
  · rw [h] at hm
    simp only [List.mem_cons, Obs.user.injEq, reduceCtorEq, false_or, Event.called.injEq, or_false, List.not_mem_nil] at hm
    obtain ⟨rfl, -, -⟩ := hm
    exact ⟨⟨⟨by unfold NoNull; decide, by decide, by decide⟩, by decide, by decide, rfl, empty_legal _⟩, by intro r P h; cases h⟩
  · rw [h] at hm
    have hm : q = .connAck x := by simpa using hm
    subst hm
    trivial
  · rcases threeParts_cuts hn with rfl | rfl <;> decide
  · rcases threeParts_cuts hn with rfl | rfl
    · exact .inl (by decide)
    · exact .inr (.inl (by decide))

end Mqrstt.Props
