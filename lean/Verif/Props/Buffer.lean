import Verif.Proof.Progress
import Verif.Proof.PropSection
import Verif.Props.Bytes
/-!
# What is kept of received bytes (C86)

smol keeps the bytes that have arrived and have not been processed in a buffer of its own.
-/

namespace Mqrstt.Props
open Mqrstt Mqrstt.Spec _root_.Spec

/-- **C86**, the part that holds: the bytes kept are exactly the ones that follow the packets processed, none is kept
twice or longer. -/
theorem C86_kept_partial (checks : Bool) (o : Options) (t : Nat) (ops : List SmolOp) (kept : Bytes)
    (hk : (smol checks o t ops).network = some kept) :
    Stream BufferPacket (smolRx checks o t ops).bytes (smolRx checks o t ops).packets kept := by
  obtain ⟨rest, h1, h2⟩ := Smol.rxed checks o t ops
  rcases h2 with h | h
  · rw [h] at hk; cases hk
  · rw [hk] at h; cases h; exact h1

/-- **C86**, the part that holds: if all packets that have arrived completely have been processed, what is kept is the part
that has arrived of the next one. Missing: with every read at most one packet is processed, so the packets that have arrived
need not have been. -/
theorem C86_bounded_partial (checks : Bool) (o : Options) (t : Nat) (ops : List SmolOp) (fs : List (Bytes × Packet))
    (f : Bytes) (p : Packet) (missing kept : Bytes) (hf : Encodings BufferPacket (fs ++ [(f, p)]))
    (hb : (smolRx checks o t ops).bytes ++ missing = ((fs ++ [(f, p)]).map (·.1)).flatten)
    (hm : missing ≠ [] ∧ missing <:+ f)
    (hdone : (smolRx checks o t ops).packets = fs.map (·.2))
    (hk : (smol checks o t ops).network = some kept) :
    kept ++ missing = f ∧ kept.length < f.length ∧ f.length ≤ 268435460 := by
  have h1 := C86_kept_partial checks o t ops kept hk
  rw [hdone] at h1
  obtain ⟨g, hg⟩ := hm.2
  have hb' : (smolRx checks o t ops).bytes = (fs.map (·.1)).flatten ++ g := by
    rw [← hg] at hb
    simp only [List.map_append, List.map_cons, List.map_nil, List.flatten_append, List.flatten_cons, List.flatten_nil,
      List.append_nil, ← List.append_assoc] at hb
    exact List.append_cancel_right hb
  have h2 : Stream BufferPacket (smolRx checks o t ops).bytes (fs.map (·.2)) g := by
    rw [hb']
    exact Encodings.stream BufferPacket.more (fun x hx => hf x (by simp [hx])) g
  obtain rfl := h1.unique BufferPacket.fn h2
  have hlen : 0 < missing.length := by
    cases missing with
    | nil => exact absurd rfl hm.1
    | cons => simp
  refine ⟨hg, by rw [← hg]; simp; omega, ?_⟩
  have hp : Packet.read f = (.ok p, []) := hf (f, p) (by simp)
  rcases Packet.read_cases f with ⟨first, len, body, rest, t, flags, rfl, ht, hv, hl⟩ | ⟨n, hn⟩ | ⟨e, he⟩
  · rw [Packet.read_isVbi ht hv hl] at hp
    simp only [Prod.mk.injEq] at hp
    obtain ⟨-, rfl⟩ := hp
    have := isVbi_lt hv
    obtain ⟨init, last, rfl, h4, -⟩ := hv
    simp only [List.length_cons, List.length_append, List.append_nil, List.length_nil] at *
    omega
  · rw [hn] at hp; cases hp
  · rw [he] at hp; cases hp

/-- the first byte of the PINGRESP is kept -/
example : (smol true netOptions 0 smolPieces).network = some [0xD0] ∧
    (smolRx true netOptions 0 smolPieces).bytes ++ [0] =
      ((serverSends.take 2 ++ [(([0xD0, 0] : Bytes), Packet.pingResp)]).map (·.1)).flatten ∧
    (smolRx true netOptions 0 smolPieces).packets = (serverSends.take 2).map (·.2) := by
  exact ⟨by decide +kernel, by decide +kernel, rfl⟩

/-- a message with quality of service 0 -/
def tinyMessage : Bytes := [0x30, 4, 0, 1, 97, 0]

/-- what it says -/
def tinyPublish : Packet :=
  .publish { dup := false, qos := .atMostOnce, retain := false, topic := ⟨[97], rfl⟩, pkid := none, props := .empty, payload := [] }

/-- `n` reads after connecting, each bringing two messages -/
def twoPerRead : Nat → List SmolOp
  | 0 => smolUp
  | n + 1 => twoPerRead n ++ [.turn (.read (tinyMessage ++ tinyMessage)) true (at' (n + 2))]

/-- one more such read -/
theorem twoPerRead_step (n : Nat) (s : Smol) (hn : s.network = some (List.replicate n tinyMessage).flatten)
    (hr : s.running = true) (ha : s.sys.alive = true) (ho : s.outgoing = []) (ht : s.now = n + 1) :
    s.step (.turn (.read (tinyMessage ++ tinyMessage)) true (at' (n + 2))) =
      some ({ s with network := some (List.replicate (n + 1) tinyMessage).flatten, now := n + 2, lastAction := n + 2 },
        [.read tinyPublish, .delivered tinyPublish]) := by
  have hp : BufferPacket ((List.replicate n tinyMessage).flatten ++ (tinyMessage ++ tinyMessage)) tinyPublish
      (List.replicate (n + 1) tinyMessage).flatten := by
    have e : (List.replicate n tinyMessage).flatten ++ (tinyMessage ++ tinyMessage) =
        tinyMessage ++ (List.replicate (n + 1) tinyMessage).flatten := by
      have e2 : (List.replicate n tinyMessage).flatten ++ (tinyMessage ++ tinyMessage) =
          (List.replicate (n + 2) tinyMessage).flatten := by
        rw [← List.replicate_append_replicate, List.flatten_append]
        rfl
      rw [e2]
      rfl
    rw [e]
    exact BufferPacket.more tinyMessage tinyPublish [] _ rfl
  obtain ⟨ck, sys, opt, ka, pf, la, aw, og, nw, rn, now⟩ := s
  simp only at hn hr ha ho ht
  subst hn hr ho ht
  obtain ⟨⟨st, cs⟩, mx, pe, qu, al⟩ := sys
  simp only at ha
  subst ha
  have hT : Times.ok (at' (n + 2)) (n + 1) = true := by simp [Times.ok, at']
  have hc : ¬ tinyMessage ++ tinyMessage = [] := by decide
  have hl : ¬ (tinyMessage ++ tinyMessage).length > 4096 := by decide
  simp only [Smol.step, Smol.turn, hT, Bool.and_self, if_true, Smol.onRead, if_neg hc, if_neg hl,
    SmolStream.parse_of_packet hp, Smol.onPacket, tinyPublish]
  rfl

/-- **C86 is false of the code**: a server sends small messages, two of them arrive with every read. There is no limit to
what is kept: after `n` reads `n` messages have been processed, and `n` messages that have arrived are kept. `run` goes on
executing. -/
theorem C86_bounded_violated (n : Nat) :
    (smolRx true netOptions 0 (twoPerRead n)).bytes = plainConnAck ++ (List.replicate (2 * n) tinyMessage).flatten ∧
    (smolRx true netOptions 0 (twoPerRead n)).packets =
      .connAck ⟨false, .success, .empty⟩ :: List.replicate n tinyPublish ∧
    (smol true netOptions 0 (twoPerRead n)).network = some (List.replicate n tinyMessage).flatten ∧
    isRunning (smolTrace true netOptions 0 (twoPerRead n)) = true := by
  have key : (smol true netOptions 0 (twoPerRead n)).network = some (List.replicate n tinyMessage).flatten ∧
      (smol true netOptions 0 (twoPerRead n)).running = true ∧ (smol true netOptions 0 (twoPerRead n)).sys.alive = true ∧
      (smol true netOptions 0 (twoPerRead n)).outgoing = [] ∧ (smol true netOptions 0 (twoPerRead n)).now = n + 1 ∧
      (smolRx true netOptions 0 (twoPerRead n)).bytes = plainConnAck ++ (List.replicate (2 * n) tinyMessage).flatten ∧
      (smolRx true netOptions 0 (twoPerRead n)).packets =
        .connAck ⟨false, .success, .empty⟩ :: List.replicate n tinyPublish := by
    induction n with
    | zero => exact ⟨rfl, rfl, rfl, rfl, rfl, rfl, rfl⟩
    | succ n ih =>
      obtain ⟨h1, h2, h3, h4, h5, h6, h7⟩ := ih
      have hs := twoPerRead_step n _ h1 h2 h3 h4 h5
      obtain ⟨e1, -⟩ := smol_snoc hs
      have e2 : smolRx true netOptions 0 (twoPerRead (n + 1)) =
          { smolRx true netOptions 0 (twoPerRead n) with
            bytes := (smolRx true netOptions 0 (twoPerRead n)).bytes ++ (tinyMessage ++ tinyMessage)
            packets := (smolRx true netOptions 0 (twoPerRead n)).packets ++ [tinyPublish] } := by
        have hs' : Smol.step (history Smol.step (Smol.new true netOptions 0) (twoPerRead n)).1
          (.turn (.read (tinyMessage ++ tinyMessage)) true (at' (n + 2))) = some _ := hs
        simp only [smolRx, twoPerRead, log_append, List.foldl_append, log, hs']
        rfl
      rw [e2, twoPerRead, e1]
      refine ⟨rfl, h2, h3, h4, rfl, ?_, ?_⟩
      · rw [h6, Nat.mul_succ, ← List.replicate_append_replicate, List.flatten_append, List.append_assoc]
        rfl
      · rw [h7, List.replicate_succ']
        rfl
  obtain ⟨h1, h2, -, -, -, h6, h7⟩ := key
  exact ⟨h6, h7, h1, (Smol.vrun true netOptions 0 (twoPerRead n)).up.2 ▸ h2⟩

end Mqrstt.Props
