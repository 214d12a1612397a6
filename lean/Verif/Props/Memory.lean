import Verif.Proof.Small
import Verif.Proof.Reconnect
import Verif.Spec.Memory
import Verif.Props.Queue
import Verif.Props.Limits
/-!
# Memory is bounded (C91)
-/

namespace Mqrstt.Props
open Mqrstt Mqrstt.Spec _root_.Spec

theorem count_length {l m : List UInt16} (h : ∀ a, l.count a = m.count a) : l.length = m.length :=
  (List.perm_iff_count.2 h).length_eq

/-- **C91.** Whatever calls are made, whatever the server sends and however often the connection is lost, while the network
exists: at most 100 packets wait; the messages kept for retransmission and the identifiers remembered are at most send
maximum many together with the free ones; there is one place per unit of the receive maximum; of the messages of the server
at most one identifier each is remembered. -/
theorem C91_each_bounded (cfg : Config) (ops : List Op) (hnet : (client cfg ops).alive = true) :
    waitingPackets (client cfg ops) ≤ 100 ∧
    rememberedIds (client cfg ops) + freeIds (client cfg ops) ≤ cfg.sendMax.toNat ∧
    keptMessages (client cfg ops) ≤ rememberedIds (client cfg ops) ∧
    places (client cfg ops) = cfg.recvMax.toNat ∧
    seenIds (client cfg ops) ≤ 65536 := by
  have hi := inv cfg ops
  have hl := hi.live hnet
  refine ⟨?_, ?_, ?_, hl.slots, sorted_length hl.incoming⟩
  · obtain ⟨rest, h1, h2⟩ := (C39_fifo cfg ops).1
    have h3 := C61_at_most_100 cfg ops
    rw [h1, h2 hnet, List.length_append] at h3
    simp only [waitingPackets]
    omega
  · have h1 := hi.length
    simp only [Ledger.ids, List.length_append] at h1
    simp only [rememberedIds, freeIds, hl.order, count_length hl.rel, count_length hl.sub, count_length hl.unsub]
    have : (client cfg ops).handler.state.pool.queue.length = (client cfg ops).pool.queue.length := rfl
    omega
  · have := hl.filled
    simp only [keptMessages, rememberedIds, hl.order]
    omega

/-- **C91.** So all that is kept is bounded by a number that depends on the options only. -/
theorem C91_memory_bounded (cfg : Config) (ops : List Op) (hnet : (client cfg ops).alive = true) :
    memory (client cfg ops) ≤ 100 + cfg.sendMax.toNat + cfg.recvMax.toNat + 65536 := by
  obtain ⟨h1, h2, -, h4, h5⟩ := C91_each_bounded cfg ops hnet
  simp only [memory]
  omega

/-- a message kept, one accepted by the server, one waiting, a subscribe, and one message of the server remembered -/
example : let s := client ⟨4, 4, 1000, false⟩ (sendOps (demoPublish .atLeastOnce) ++ sendOps (demoPublish .exactlyOnce) ++
      [.receive (.pubRec ⟨2, .success, .empty⟩), .receive (.publish ⟨false, .exactlyOnce, false, ⟨[97], by decide⟩, some 9, .empty, []⟩), .call (demoPublish .atLeastOnce), .submit 0])
    s.alive = true ∧ waitingPackets s = 1 ∧ keptMessages s = 1 ∧ rememberedIds s = 2 ∧ freeIds s = 1 ∧ seenIds s = 1 ∧
      places s = 4 := by decide

/-- **C91.** In the whole network of tokio. -/
theorem C91_tokio (o : Options) (t : Nat) (ops : List TokioOp) (hu : Usable (tokioTrace o t ops)) :
    memory (tokio o t ops).sys ≤ 100 + o.sendMaximum.toNat + o.receiveMaximum.toNat + 65536 := by
  have hv := Tokio.vrun o t ops
  obtain ⟨ops', hc⟩ := hv.contains
  have ha := hv.usable hu
  have hs : (tokio o t ops).sys = client o.config ops' := hc.sys
  rw [hs]
  exact C91_memory_bounded o.config ops' (by rw [← hs]; exact ha)

/-- with a message sent and not acknowledged -/
example : let ops := tokioUp ++ sendNow (demoPublish .atLeastOnce) 2
    Usable (tokioTrace resumeOptions 0 ops) ∧ keptMessages (tokio resumeOptions 0 ops).sys = 1 ∧
      memory (tokio resumeOptions 0 ops).sys = 8 :=
  ⟨usable_of rfl, rfl, rfl⟩

/-- **C91.** In the whole network of smol. -/
theorem C91_smol (checks : Bool) (o : Options) (t : Nat) (ops : List SmolOp) (hu : Usable (smolTrace checks o t ops)) :
    memory (smol checks o t ops).sys ≤ 100 + o.sendMaximum.toNat + o.receiveMaximum.toNat + 65536 := by
  have hv := Smol.vrun checks o t ops
  obtain ⟨ops', hc⟩ := hv.contains
  have ha := hv.usable hu
  have hs : (smol checks o t ops).sys = client o.config ops' := hc.sys
  rw [hs]
  exact C91_memory_bounded o.config ops' (by rw [← hs]; exact ha)

/-- with a message accepted by the queue -/
example : let ops := smolUp ++ [.client (.call (demoPublish .atLeastOnce)), .client (.submit 0)]
    Usable (smolTrace true resumeOptions 0 ops) ∧ waitingPackets (smol true resumeOptions 0 ops).sys = 1 ∧
      memory (smol true resumeOptions 0 ops).sys = 8 :=
  ⟨usable_of rfl, rfl, rfl⟩

end Mqrstt.Props
