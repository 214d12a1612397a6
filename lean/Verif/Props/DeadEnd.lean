import Verif.Proof.DeadEnd
import Verif.Proof.Encoded
import Verif.Props.Reconnect
import Verif.Props.Progress
/-!
# Nothing is stuck for good (C116)
-/

namespace Mqrstt.Props
open Mqrstt Mqrstt.Spec _root_.Spec

/-- **C116**, the part that holds for tokio. Whatever has happened, as long as the network and a client exist: without any new call
there is a way on, by connecting again, in which all packets handed over so far and those of the calls that wait are written, in
order, all calls return, every message gets its last acknowledgement and nothing is left in memory. Missing: what was asked for must
be legal, the send maximum at most the receive maximum, and a client must exist. -/
theorem C116_no_dead_end_tokio_partial (clientId : Str) (calls : List Setter) (t : Nat) (ops : List TokioOp)
    (hopt : ∀ c, (Options.build clientId calls).connectPacket = .connect c → LegalConnect c)
    (hmax : (Options.build clientId calls).sendMaximum ≤ (Options.build clientId calls).receiveMaximum)
    (huse : Usable (tokioTrace (Options.build clientId calls) t ops))
    (hclients : ¬ ClientsGone (tokioTrace (Options.build clientId calls) t ops))
    (hlegal : ∀ q id p, .user (.called q id p) ∈ tokioTrace (Options.build clientId calls) t ops → LegalRequest q ∧
      ∀ r P, q = .disconnect r P → (Packet.disconnect ⟨r, P⟩).bodyWireLen ≤ 268435455) :
    ∃ more obs, (∀ op ∈ more, onlyServesTokio op = true) ∧
      tokioTrace (Options.build clientId calls) t (ops ++ more) = tokioTrace (Options.build clientId calls) t ops ++ obs ∧
      Settles (Options.build clientId calls).cleanStart (tokioTrace (Options.build clientId calls) t ops) obs ∧
      ((tokio (Options.build clientId calls) t ops).sys.queue ++ (tokio (Options.build clientId calls) t ops).sys.pending).Sublist
        (writtenIn obs) ∧
      waitingPackets (tokio (Options.build clientId calls) t (ops ++ more)).sys = 0 ∧
      keptMessages (tokio (Options.build clientId calls) t (ops ++ more)).sys = 0 ∧
      rememberedIds (tokio (Options.build clientId calls) t (ops ++ more)).sys = 0 := by
  obtain ⟨more, s', obs, h1, h2, h3, h4, h5, h6, h7⟩ := (tokioRuntime clientId calls hopt t).settles tokioRuntime_run hmax
    (tr := tokioTrace (Options.build clientId calls) t ops) (s := tokio (Options.build clientId calls) t ops) ⟨ops, rfl⟩
    ⟨huse, hclients, hlegal⟩
  change List TokioOp at more
  have e : history Tokio.step (Tokio.new (Options.build clientId calls) t) (ops ++ more) =
      (s', tokioTrace (Options.build clientId calls) t ops ++ obs) := by
    rw [history_append]
    have h1 : history Tokio.step (history Tokio.step (Tokio.new (Options.build clientId calls) t) ops).1 more = (s', obs) := h1
    rw [h1]
    rfl
  have e1 : tokio (Options.build clientId calls) t (ops ++ more) = s' := congrArg Prod.fst e
  exact ⟨more, obs, h2, congrArg Prod.snd e, h3, h4, by rw [e1]; exact h5, by rw [e1]; exact h6, by rw [e1]; exact h7⟩

/-- **C116**, the part that holds for smol. -/
theorem C116_no_dead_end_smol_partial (clientId : Str) (calls : List Setter) (checks : Bool) (t : Nat) (ops : List SmolOp)
    (hopt : ∀ c, (Options.build clientId calls).connectPacket = .connect c → LegalConnect c)
    (hmax : (Options.build clientId calls).sendMaximum ≤ (Options.build clientId calls).receiveMaximum)
    (huse : Usable (smolTrace checks (Options.build clientId calls) t ops))
    (hclients : ¬ ClientsGone (smolTrace checks (Options.build clientId calls) t ops))
    (hlegal : ∀ q id p, .user (.called q id p) ∈ smolTrace checks (Options.build clientId calls) t ops → LegalRequest q ∧
      ∀ r P, q = .disconnect r P → (Packet.disconnect ⟨r, P⟩).bodyWireLen ≤ 268435455) :
    ∃ more obs, (∀ op ∈ more, onlyServesSmol op = true) ∧
      smolTrace checks (Options.build clientId calls) t (ops ++ more) = smolTrace checks (Options.build clientId calls) t ops ++ obs ∧
      Settles (Options.build clientId calls).cleanStart (smolTrace checks (Options.build clientId calls) t ops) obs ∧
      ((smol checks (Options.build clientId calls) t ops).sys.queue ++
        (smol checks (Options.build clientId calls) t ops).sys.pending).Sublist (writtenIn obs) ∧
      waitingPackets (smol checks (Options.build clientId calls) t (ops ++ more)).sys = 0 ∧
      keptMessages (smol checks (Options.build clientId calls) t (ops ++ more)).sys = 0 ∧
      rememberedIds (smol checks (Options.build clientId calls) t (ops ++ more)).sys = 0 := by
  obtain ⟨more, s', obs, h1, h2, h3, h4, h5, h6, h7⟩ := (smolRuntime clientId calls hopt checks t).settles smolRuntime_run hmax
    (tr := smolTrace checks (Options.build clientId calls) t ops) (s := smol checks (Options.build clientId calls) t ops) ⟨ops, rfl⟩
    ⟨huse, hclients, hlegal⟩
  change List SmolOp at more
  have e : history Smol.step (Smol.new checks (Options.build clientId calls) t) (ops ++ more) =
      (s', smolTrace checks (Options.build clientId calls) t ops ++ obs) := by
    rw [history_append]
    have h1 : history Smol.step (history Smol.step (Smol.new checks (Options.build clientId calls) t) ops).1 more = (s', obs) := h1
    rw [h1]
    rfl
  have e1 : smol checks (Options.build clientId calls) t (ops ++ more) = s' := congrArg Prod.fst e
  exact ⟨more, obs, h2, congrArg Prod.snd e, h3, h4, by rw [e1]; exact h5, by rw [e1]; exact h6, by rw [e1]; exact h7⟩

/-- the hypotheses can be met: a message that was not acknowledged before the connection was lost -/
example : resumeOptions.sendMaximum ≤ resumeOptions.receiveMaximum ∧
    (∀ c, resumeOptions.connectPacket = .connect c → LegalConnect c) ∧
    Usable (smolTrace true resumeOptions 0 smolUnacked) ∧ ¬ ClientsGone (smolTrace true resumeOptions 0 smolUnacked) ∧
    (∀ q id p, .user (.called q id p) ∈ smolTrace true resumeOptions 0 smolUnacked → LegalRequest q ∧
      ∀ r P, q = .disconnect r P → (Packet.disconnect ⟨r, P⟩).bodyWireLen ≤ 268435455) ∧
    (sender false (smolTrace true resumeOptions 0 smolUnacked)).unacked.length = 1 :=
  ⟨by decide, resumeOptions_legal, usable_of rfl,
    fun hg => Bool.noConfusion (show false = true from (Smol.vrun true resumeOptions 0 smolUnacked).closed.mpr hg),
    smolUnacked_legal.requests, rfl⟩

/-- the calls of a packet without an encoding -/
def tokioStuck : List TokioOp := tokioUp ++ [.client (.call unencodable), .client (.submit 0)]
def smolStuck : List SmolOp := smolUp ++ [.client (.call unencodable), .client (.submit 0)]

/-- **C116 is false of the code** for a packet that has no encoding: the call has returned `Ok`, network and client exist, and
whatever happens from now on, the packet is not written. -/
theorem C116_no_dead_end_violated :
    (submittedIn (tokioTrace resumeOptions 0 tokioStuck) = [unencodablePacket] ∧ Usable (tokioTrace resumeOptions 0 tokioStuck) ∧
      ¬ ClientsGone (tokioTrace resumeOptions 0 tokioStuck) ∧
      ∀ more, unencodablePacket ∉ writtenIn (tokioTrace resumeOptions 0 (tokioStuck ++ more))) ∧
    (submittedIn (smolTrace true resumeOptions 0 smolStuck) = [unencodablePacket] ∧ Usable (smolTrace true resumeOptions 0 smolStuck) ∧
      ¬ ClientsGone (smolTrace true resumeOptions 0 smolStuck) ∧
      ∀ more, unencodablePacket ∉ writtenIn (smolTrace true resumeOptions 0 (smolStuck ++ more))) := by
  obtain ⟨e1, h1⟩ : ∃ e, unencodablePacket.asyncWrite = .error e := ⟨_, rfl⟩
  obtain ⟨e2, h2⟩ : ∃ e, unencodablePacket.write = .error e := ⟨_, rfl⟩
  refine ⟨⟨rfl, usable_of rfl, fun hg => ?_, fun more hm => ?_⟩, ⟨rfl, usable_of rfl, fun hg => ?_, fun more hm => ?_⟩⟩
  · exact Bool.noConfusion (show false = true from (Tokio.vrun resumeOptions 0 tokioStuck).closed.mpr hg)
  · obtain ⟨a, b, hm⟩ := mem_writtenIn hm
    obtain ⟨e, h⟩ := tokio_encoded _ _ _ _ a b hm
    rw [h1] at h
    cases h
  · exact Bool.noConfusion (show false = true from (Smol.vrun true resumeOptions 0 smolStuck).closed.mpr hg)
  · obtain ⟨a, b, hm⟩ := mem_writtenIn hm
    obtain ⟨e, h⟩ := smol_encoded _ _ _ _ _ a b hm
    rw [h2] at h
    cases h

end Mqrstt.Props
