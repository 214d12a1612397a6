import Verif.Proof.Dropped
import Verif.Proof.DropConnect
import Verif.Props.Origin
/-! # The bytes of a history in which `run` may be dropped anywhere -/

namespace Mqrstt
open Mqrstt.Spec Mqrstt.Props _root_.Spec

/-! ## packets and bytes -/

/-- both writers encode the packet as MQTT says -/
def Says (p : Packet) : Prop := PacketSays p (tokioBytes p) ∧ PacketSays p (smolBytes p)

theorem Props.Fine.says {p : Packet} (h : Fine p) : Says p := by
  obtain ⟨⟨bs, e, hs⟩, bs', n, e', hs'⟩ := h.written
  exact ⟨by rw [tokioBytes, e']; exact hs', by rw [smolBytes, e]; exact hs⟩

/-- legal, and of a size that can be expressed -/
def Sendable (p : Packet) : Prop := Legal p ∧ p.bodyWireLen ≤ 268435455

theorem Sendable.says {p : Packet} (h : Sendable p) : Says p := (Legal.fine h.1 h.2).says

theorem sendable_closed : Closed Sendable where
  copy _ h := h
  pubAck id := ⟨⟨by simp [Reason.pubAck], empty_legal _⟩, (ack_fits id).1⟩
  pubRec id := ⟨⟨by simp [Reason.pubRec], empty_legal _⟩, (ack_fits id).2.1⟩
  pubRel id := ⟨⟨by simp [Reason.pubRel], empty_legal _⟩, (ack_fits id).2.2.1⟩
  pubComp id := ⟨⟨by simp [Reason.pubComp], empty_legal _⟩, (ack_fits id).2.2.2⟩
  pingReq := ⟨trivial, by decide⟩
  timeout := ⟨⟨by decide, empty_legal _⟩, by decide⟩

theorem Spec.Cuts.wholes {n : Nat} {bs : Bytes} {bytes : Packet → Bytes} {ps : List Packet} (h : Cuts n bs)
    (hp : ∀ p ∈ ps, PacketSays p (bytes p)) : Cuts n (bs ++ ps.flatMap bytes) := by
  induction ps generalizing bs with
  | nil => simpa using h
  | cons p ps ih =>
    have := ih (h.whole (hp p (by simp))) (fun q hq => hp q (by simp [hq]))
    simpa using this

theorem Spec.Cuts.more {n : Nat} {bs : Bytes} (h : Cuts n bs) : Cuts (n + 1) bs := by
  induction h with
  | nil => exact .nil
  | whole _ hf ih => exact ih.whole hf
  | cut k _ hf ih => exact ih.cut k hf

theorem Spec.Cuts.broken {n : Nat} {bs : Bytes} {bytes : Packet → Bytes} {ps : List Packet} (h : Cuts n bs)
    (hp : ∀ p ∈ ps, PacketSays p (bytes p)) (k : Nat) : Cuts (n + 1) (bs ++ (ps.flatMap bytes).take k) := by
  induction ps generalizing bs k with
  | nil => simpa using h.more
  | cons p ps ih =>
    simp only [List.flatMap_cons]
    by_cases hk : k ≤ (bytes p).length
    · rw [List.take_append_of_le_length hk]
      exact h.cut k (hp p (by simp))
    · rw [List.take_append, List.take_of_length_le (by omega), ← List.append_assoc]
      exact ih (h.whole (hp p (by simp))) (fun q hq => hp q (by simp [hq])) _

theorem Spec.Cuts.wireIs {bs : Bytes} {ps : List Packet} (h : WireIs bs ps) : Cuts 0 bs := by
  have key : ∀ {bs r : Bytes} {ps : List Packet}, Stream OnWire bs ps r → r = [] → ∀ {n pre}, Cuts n pre → Cuts n (pre ++ bs) := by
    intro bs r ps h
    induction h with
    | nil => rintro rfl n pre hp; simpa using hp
    | cons h1 _ ih =>
      rintro rfl n pre hp
      obtain ⟨f, rfl, hf⟩ := h1
      rw [← List.append_assoc]
      exact ih rfl (hp.whole hf)
  exact key h rfl .nil

/-! ## the session -/

structure LegalSys (o : Options) (s : Sys) : Prop where
  held : Holds Sendable s
  reach : ∃ sops, s = client o.config sops
  users : s.Users

theorem LegalSys.init (o : Options) : LegalSys o o.sys := ⟨.init _ o, ⟨[], rfl⟩, .init o⟩

/-- C58's conditions on a call -/
def LegalCall (q : Request) : Prop :=
  LegalRequest q ∧ ∀ r P, q = .disconnect r P → (Packet.disconnect ⟨r, P⟩).bodyWireLen ≤ 268435455

theorem LegalSys.step {clientId : Str} {calls : List Setter} {s s' : Sys} {op : Op} {e : Event} (h : LegalSys (Options.build clientId calls) s)
    (hs : s.step op = some (s', e)) (hc : ∀ q id p, e = .called q id p → LegalCall q) : LegalSys (Options.build clientId calls) s' := by
  obtain ⟨sops, hr⟩ := h.reach
  refine ⟨h.held.step hs ?_, ⟨sops ++ [op], ?_⟩, h.users.step hs⟩
  · rintro q id p rfl
    obtain ⟨h1, h2⟩ := hc q id p rfl
    obtain rfl := Sys.step_called hs
    rw [hr] at hs
    obtain ⟨g1, ⟨bs, g2⟩, -⟩ := C58_accepted_is_legal_partial clientId calls sops q id p s' h1 h2 hs
    refine ⟨g1, Nat.le_of_not_lt fun hl => ?_⟩
    rw [(Packet.write_overflow p hl).1] at g2
    cases g2
  · rw [hr] at hs
    exact (client_snoc _ sops hs).1.symm

/-- one step of a network -/
theorem LegalSys.vstep {clientId : Str} {calls : List Setter} {fl : Flavor} {v w : View} {obs : List Obs}
    (h : LegalSys (Options.build clientId calls) v.sys) (hv : VStep fl v obs w)
    (hc : ∀ q id p, .user (.called q id p) ∈ obs → LegalCall q) : LegalSys (Options.build clientId calls) w.sys := by
  rcases hv.sys with e | ⟨op, e, hs, he⟩
  · rw [e]; exact h
  · exact h.step hs fun q id p he' => hc q id p (he q id p he')

theorem sameOptions_fine {clientId : Str} {calls : List Setter} {o : Options}
    (hopt : ∀ c, (Options.build clientId calls).connectPacket = .connect c → LegalConnect c)
    (h : Tokio.sameOptions (Options.build clientId calls) o) {c : Connect} (hc : .connect c = o.connectPacket) : Fine (.connect c) := by
  obtain ⟨k, rfl⟩ := h
  refine connect_fine hc ?_
  cases hc
  obtain ⟨l1, l2, l3, l4, l5, l6, l7⟩ := hopt _ rfl
  exact ⟨l1, l2, l3, l4, l5, l6, l7⟩

/-- a dropped step: the session may have made a step, which is not a call -/
def Quietly (s s' : Sys) : Prop := s' = s ∨ ∃ op e, s.step op = some (s', e) ∧ ∀ q id p, e ≠ .called q id p

theorem LegalSys.quietly {clientId : Str} {calls : List Setter} {s s' : Sys} (h : LegalSys (Options.build clientId calls) s)
    (hs : Quietly s s') : LegalSys (Options.build clientId calls) s' := by
  rcases hs with rfl | ⟨op, e, hs, he⟩
  · exact h
  · exact h.step hs fun q id p he' => absurd he' (he q id p)

/-! ## tokio -/

/-- what dropping `run` in the middle does -/
structure TokioDropped (s s' : TokioWire) (d : DropAt) (obs : List Obs) : Prop where
  options : s'.net.options = s.net.options
  sys : Quietly s.net.sys s'.net.sys
  wire : match d with
    | .handling => s'.wire = s.wire
    | .writing k => ∃ p, s'.wire = s.wire ++ (tokioBytes p).take k ∧ ∀ P, Closed P → Holds P s.net.sys → P p

theorem received_quietly {s s' : Sys} {p q : Packet} {r : Option Packet} {b : Bool}
    (h : s.step (.receive p) = some (s', .received q r b)) : Quietly s s' := .inr ⟨_, _, h, by rintro _ _ _ h; cases h⟩

theorem TokioWire.drop_facts {s s' : TokioWire} {b : TokioBranch} {d : DropAt} {lost : Nat} {T : Times} {obs : List Obs}
    (h : s.drop b d lost T = some (s', obs)) : TokioDropped s s' d obs := by
  simp only [TokioWire.drop] at h
  split at h
  · split at h
    · cases b with
      | read =>
        simp only [TokioWire.dropRead] at h
        split at h
        · split at h
          · split at h
            · cases h; exact ⟨rfl, .inl rfl, rfl⟩
            · cases h
          · split at h
            · cases h; exact ⟨rfl, .inl rfl, rfl⟩
            · cases h
          · split at h
            · rename_i hs
              split at h
              · split at h
                · cases h; exact ⟨rfl, received_quietly hs, rfl⟩
                · cases h
              · simp only [TokioWire.cut] at h
                split at h
                · cases h
                  refine ⟨rfl, received_quietly hs, _, rfl, fun P hC _ => ?_⟩
                  exact answer_closed hC (Sys.step_answer (received_self hs)) _ rfl
                · cases h
              · cases h
            · cases h
        · cases h
      | readError => cases h
      | outgoing =>
        simp only at h
        split at h
        · simp only [TokioWire.dropOutgoing] at h
          split at h
          · rename_i hq
            split at h
            · rename_i sys e hs
              simp only [TokioWire.cut] at h
              split at h
              · cases h
                refine ⟨rfl, .inr ⟨_, _, hs, ?_⟩, _, rfl, fun P _ hP => hP.waiting _ (.inr ?_)⟩
                · rintro q id p rfl
                  exact absurd (Sys.step_called hs) (by simp)
                · rw [hq]; simp
              · cases h
            · cases h
          · cases h
        · cases h
      | timer =>
        simp only at h
        split at h
        · simp only [TokioWire.dropTimer] at h
          split at h
          · split at h
            · split at h
              · simp only [TokioWire.cut] at h
                split at h
                · cases h
                  exact ⟨rfl, .inl rfl, _, rfl, fun P hC _ => hC.pingReq⟩
                · cases h
              · cases h
            · simp only [TokioWire.cut] at h
              split at h
              · cases h
                exact ⟨rfl, .inl rfl, _, rfl, fun P hC _ => hC.timeout⟩
              · cases h
            · cases h
          · cases h
        · cases h
    · cases h
  · cases h

/-- everything written in a step is in MQTT's format -/
theorem tokio_op_says {clientId : Str} {calls : List Setter} {s s' : Tokio} {op : TokioOp} {obs : List Obs}
    (hopt : ∀ c, (Options.build clientId calls).connectPacket = .connect c → LegalConnect c)
    (h : LegalSys (Options.build clientId calls) s.sys) (ho : Tokio.sameOptions (Options.build clientId calls) s.options)
    (hs : s.step op = some (s', obs)) : ∀ p ∈ writtenIn obs, Says p := by
  intro p hp
  obtain ⟨a, b, hm⟩ := mem_writtenIn hp
  rcases (Tokio.step_vstep hs).held sendable_closed h.held p a b hm with ⟨c, rfl⟩ | hP
  · obtain ⟨o1, o2, rfl⟩ := List.append_of_mem hm
    exact (sameOptions_fine hopt ho (Tokio.step_connect h.users hs).2).says
  · exact hP.says

theorem sentStep_says {r : List Packet} {op : TokioOp} {obs : List Obs} (hr : ∀ p ∈ r, Says p) (ho : ∀ p ∈ writtenIn obs, Says p) :
    ∀ p ∈ tokioSentStep r (op, obs), Says p := by
  intro p hp
  cases op <;> simp only [tokioSentStep] at hp
  case connect => split at hp
                  · exact ho p hp
                  · exact hr p hp
  all_goals
    simp only [List.mem_append] at hp
    rcases hp with hp | hp
    · exact hr p hp
    · exact ho p hp

theorem tokio_wire_history {clientId : Str} {calls : List Setter}
    (hopt : ∀ c, (Options.build clientId calls).connectPacket = .connect c → LegalConnect c) (ops : List TokioWireOp) :
    ∀ (s : TokioWire) (r : List Packet), LegalSys (Options.build clientId calls) s.net.sys →
      Tokio.sameOptions (Options.build clientId calls) s.net.options → (∀ p ∈ r, Says p) →
      (∀ q id p, .user (.called q id p) ∈ (s.runOps ops).2 → LegalCall q) →
      (s.wire = r.flatMap tokioBytes → (∀ op ∈ ops, tokioCutsWrite op = false) →
        (s.runOps ops).1.wire = ((log TokioWire.step s ops).foldl tokioWireSentStep r).flatMap tokioBytes) ∧
      (∀ p ∈ (log TokioWire.step s ops).foldl tokioWireSentStep r, Says p) ∧
      (∀ n, Cuts n s.wire → Cuts (n + ops.countP tokioCutsWrite) (s.runOps ops).1.wire) := by
  induction ops with
  | nil => intro s r _ _ hr _; exact ⟨fun h _ => h, hr, fun n h => h⟩
  | cons op ops ih =>
    intro s r hs ho hr hcalls
    simp only [TokioWire.runOps, history, log] at ih hcalls ⊢
    cases e : s.step op with
    | none =>
      simp only [e] at hcalls ⊢
      obtain ⟨h1, h2, h3⟩ := ih s r hs ho hr hcalls
      refine ⟨fun hw hd => h1 hw fun op hop => hd op (by simp [hop]), h2, fun n hn => ?_⟩
      rw [List.countP_cons]
      split
      · exact (h3 n hn).more
      · exact h3 n hn
    | some x =>
      obtain ⟨s', obs⟩ := x
      simp only [e, List.foldl_cons] at hcalls ⊢
      have hc1 : ∀ q id p, .user (.called q id p) ∈ obs → LegalCall q := fun q id p h => hcalls q id p (List.mem_append_left _ h)
      have hc2 := fun q id p h => hcalls q id p (List.mem_append_right obs h)
      cases op with
      | op op =>
        simp only [TokioWire.step] at e
        split at e
        · rename_i net obs' hn
          cases e
          have hsay := tokio_op_says hopt hs ho hn
          have ho' : Tokio.sameOptions (Options.build clientId calls) net.options := by
            obtain ⟨k, hk⟩ := ho
            obtain ⟨k', hk'⟩ := Tokio.step_options hn
            exact ⟨k', by rw [hk', hk]⟩
          have hv := Tokio.step_vstep hn
          obtain ⟨h1, h2, h3⟩ := ih ⟨net, TokioWire.advance s.wire op obs⟩ (tokioSentStep r (op, obs)) (hs.vstep hv hc1) ho'
            (sentStep_says hr hsay) hc2
          refine ⟨fun hw hd => h1 ?_ fun op hop => hd op (by simp [hop]), h2, fun n hcut => ?_⟩
          · cases op <;> simp only [TokioWire.advance, tokioSentStep, sent_eq, connectedIn_eq, hw, List.flatMap_append]
            split <;> simp
          · rw [List.countP_cons_of_neg (by simp [tokioCutsWrite])]
            refine h3 n (?_ : Cuts n (TokioWire.advance s.wire op obs))
            have hsay' : ∀ p ∈ writtenIn obs, PacketSays p (tokioBytes p) := fun p hp => (hsay p hp).1
            cases op <;> simp only [TokioWire.advance, sent_eq, connectedIn_eq]
            case connect =>
              by_cases hc : hasConnected obs = true
              · simpa [hc] using (Cuts.nil (n := n)).wholes hsay'
              · simpa [hc] using hcut
            all_goals exact hcut.wholes hsay'
        · cases e
      | drop b d lost T =>
        have hd := TokioWire.drop_facts (show s.drop b d lost T = some (s', obs) from e)
        obtain ⟨h1, h2, h3⟩ := ih s' r (hs.quietly hd.sys) (hd.options ▸ ho) hr hc2
        have hw := hd.wire
        cases d with
        | handling =>
          simp only at hw
          refine ⟨fun hw' hd' => h1 (hw.trans hw') fun op hop => hd' op (by simp [hop]), h2, fun n hn => ?_⟩
          rw [List.countP_cons_of_neg (by simp [tokioCutsWrite])]
          exact h3 n (hw ▸ hn)
        | writing k =>
          obtain ⟨p, hw, hp⟩ := hw
          refine ⟨fun _ hd' => ?_, h2, fun n hn => ?_⟩
          · have := hd' _ (.head _)
            simp [tokioCutsWrite] at this
          · rw [List.countP_cons_of_pos (by simp [tokioCutsWrite])]
            have := h3 (n + 1) (hw ▸ hn.cut k (hp _ sendable_closed hs.held).says.1)
            rw [Nat.add_right_comm] at this
            exact this
      | dropConnect i d =>
        obtain ⟨i', obs', -, hn, -, hsame, hw⟩ := TokioWire.dropConnect_failed e
        have ho' : Tokio.sameOptions (Options.build clientId calls) s'.net.options := by
          obtain ⟨k, hk⟩ := ho
          obtain ⟨k', hk'⟩ := Tokio.step_options hn
          exact ⟨k', by rw [hk', hk]⟩
        obtain ⟨h1, h2, h3⟩ := ih s' r (hs.vstep (Tokio.step_vstep hn) fun q id p h => absurd h (hsame.called _).2) ho' hr hc2
        refine ⟨fun hw' hd' => h1 (hw.trans hw') fun op hop => hd' op (by simp [hop]), h2, fun n hn => ?_⟩
        rw [List.countP_cons_of_neg (by simp [tokioCutsWrite])]
        exact h3 n (hw ▸ hn)

/-! ## smol -/

/-- what dropping `run` in the middle does -/
structure SmolDropped (s s' : SmolWire) (d : DropAt) (obs : List Obs) : Prop where
  options : s'.net.options = s.net.options
  good : s.net.Good → s'.net.Good
  sys : Quietly s.net.sys s'.net.sys
  wire : match d with
    | .handling => s'.wire = s.wire ∧ s'.buffer = s.buffer
    | .writing k => ∃ ps : List Packet, s'.buffer = s.buffer ++ ps.flatMap smolBytes ∧ s'.wire = s.wire ++ s'.buffer.take k ∧
        (s.net.Good → ∀ P, Closed P → Holds P s.net.sys → ∀ p ∈ ps, P p)

theorem SmolWire.drop_facts {s s' : SmolWire} {b : SmolBranch} {d : DropAt} {T : Times} {obs : List Obs}
    (h : s.drop b d T = some (s', obs)) : SmolDropped s s' d obs := by
  have idle : ∀ {n : Smol}, n.outgoing = [] → n.running = false → n.Good := fun h1 h2 => ⟨h1, by rw [h2]; simp⟩
  simp only [SmolWire.drop] at h
  split at h
  · split at h
    · cases b with
      | read chunk =>
        simp only [SmolWire.dropRead] at h
        split at h
        · cases h
        · split at h
          · split at h
            · split at h
              · cases h; exact ⟨rfl, fun hg => idle hg.outgoing rfl, .inl rfl, rfl, rfl⟩
              · simp only [SmolWire.cut] at h
                split at h
                · cases h
                  refine ⟨rfl, fun hg => idle rfl rfl, .inl rfl, _, rfl, rfl, fun hg P _ _ p hp => ?_⟩
                  rw [hg.outgoing] at hp
                  simp at hp
                · cases h
            · split at h
              · cases h; exact ⟨rfl, fun hg => idle hg.outgoing rfl, .inl rfl, rfl, rfl⟩
              · cases h
            · split at h
              · rename_i hs
                split at h
                · split at h
                  · cases h; exact ⟨rfl, fun hg => idle hg.outgoing rfl, received_quietly hs, rfl, rfl⟩
                  · cases h
                · simp only [SmolWire.cut] at h
                  split at h
                  · cases h
                    refine ⟨rfl, fun hg => idle rfl rfl, received_quietly hs, _, rfl, rfl, fun hg P hC _ p hp => ?_⟩
                    simp only [hg.outgoing, List.nil_append, Option.mem_toList] at hp
                    exact answer_closed hC (Sys.step_answer (received_self hs)) _ hp
                  · cases h
              · cases h
          · cases h
      | readError => cases h
      | outgoing =>
        simp only [SmolWire.dropOutgoing] at h
        split at h
        · rename_i hq
          split at h
          · rename_i sys e hs
            simp only [SmolWire.cut] at h
            split at h
            · cases h
              refine ⟨rfl, fun hg => idle hg.outgoing rfl, .inr ⟨_, _, hs, ?_⟩, _, rfl, rfl, fun hg P _ hP p hp => hP.waiting _ (.inr ?_)⟩
              · rintro q id p rfl
                exact absurd (Sys.step_called hs) (by simp)
              · rw [List.mem_singleton] at hp
                rw [hq, hp]; simp
            · cases h
          · cases h
        · cases h
      | timer =>
        simp only [SmolWire.dropTimer] at h
        split at h
        · split at h
          · split at h
            · simp only [SmolWire.cut] at h
              split at h
              · cases h
                exact ⟨rfl, fun hg => idle hg.outgoing rfl, .inl rfl, _, rfl, rfl, fun hg P hC _ p hp => by
                  rw [List.mem_singleton] at hp; rw [hp]; exact hC.pingReq⟩
              · cases h
            · simp only [SmolWire.cut] at h
              split at h
              · cases h
                exact ⟨rfl, fun hg => idle hg.outgoing rfl, .inl rfl, _, rfl, rfl, fun hg P hC _ p hp => by
                  rw [List.mem_singleton] at hp; rw [hp]; exact hC.timeout⟩
              · cases h
          · cases h
        · cases h
    · cases h
  · cases h

theorem smol_op_says {clientId : Str} {calls : List Setter} {s s' : Smol} {op : SmolOp} {obs : List Obs}
    (hopt : ∀ c, (Options.build clientId calls).connectPacket = .connect c → LegalConnect c) (hg : s.Good)
    (h : LegalSys (Options.build clientId calls) s.sys) (ho : Tokio.sameOptions (Options.build clientId calls) s.options)
    (hs : s.step op = some (s', obs)) : ∀ p ∈ writtenIn obs, Says p := by
  intro p hp
  obtain ⟨a, b, hm⟩ := mem_writtenIn hp
  rcases (Smol.step_vstep hg hs).1.held sendable_closed h.held p a b hm with ⟨c, rfl⟩ | hP
  · obtain ⟨o1, o2, rfl⟩ := List.append_of_mem hm
    exact (sameOptions_fine hopt ho (Smol.step_connect hg h.users hs).2).says
  · exact hP.says

theorem smolSentStep_says {r : List Packet} {op : SmolOp} {obs : List Obs} (hr : ∀ p ∈ r, Says p) (ho : ∀ p ∈ writtenIn obs, Says p) :
    ∀ p ∈ smolSentStep r (op, obs), Says p := by
  intro p hp
  cases op <;> simp only [smolSentStep] at hp
  case connect => split at hp
                  · exact ho p hp
                  · exact hr p hp
  all_goals
    simp only [List.mem_append] at hp
    rcases hp with hp | hp
    · exact hr p hp
    · exact ho p hp

theorem smol_wire_history {clientId : Str} {calls : List Setter}
    (hopt : ∀ c, (Options.build clientId calls).connectPacket = .connect c → LegalConnect c) (ops : List SmolWireOp) :
    ∀ (s : SmolWire) (r bufs : List Packet), LegalSys (Options.build clientId calls) s.net.sys → s.net.Good →
      Tokio.sameOptions (Options.build clientId calls) s.net.options → (∀ p ∈ r, Says p) → (∀ p ∈ bufs, Says p) →
      s.buffer = bufs.flatMap smolBytes →
      (∀ q id p, .user (.called q id p) ∈ (s.runOps ops).2 → LegalCall q) →
      (s.wire = r.flatMap smolBytes → s.buffer = [] → (∀ op ∈ ops, smolCutsWrite op = false) →
        (s.runOps ops).1.wire = ((log SmolWire.step s ops).foldl smolWireSentStep r).flatMap smolBytes) ∧
      (∀ p ∈ (log SmolWire.step s ops).foldl smolWireSentStep r, Says p) ∧
      (∀ n, Cuts n s.wire → Cuts (n + ops.countP smolCutsWrite) (s.runOps ops).1.wire) := by
  induction ops with
  | nil => intro s r _ _ _ _ hr _ _ _; exact ⟨fun h _ _ => h, hr, fun n h => h⟩
  | cons op ops ih =>
    intro s r bufs hs hg ho hr hb hbuf hcalls
    simp only [SmolWire.runOps, history, log] at ih hcalls ⊢
    cases e : s.step op with
    | none =>
      simp only [e] at hcalls ⊢
      obtain ⟨h1, h2, h3⟩ := ih s r bufs hs hg ho hr hb hbuf hcalls
      refine ⟨fun hw hB hd => h1 hw hB fun op hop => hd op (by simp [hop]), h2, fun n hn => ?_⟩
      rw [List.countP_cons]
      split
      · exact (h3 n hn).more
      · exact h3 n hn
    | some x =>
      obtain ⟨s', obs⟩ := x
      simp only [e, List.foldl_cons] at hcalls ⊢
      have hc1 : ∀ q id p, .user (.called q id p) ∈ obs → LegalCall q := fun q id p h => hcalls q id p (List.mem_append_left _ h)
      have hc2 := fun q id p h => hcalls q id p (List.mem_append_right obs h)
      cases op with
      | op op =>
        simp only [SmolWire.step] at e
        split at e
        · rename_i net obs' hn
          cases e
          have hsay := smol_op_says hopt hg hs ho hn
          have hsay' : ∀ p ∈ writtenIn obs, PacketSays p (smolBytes p) := fun p hp => (hsay p hp).2
          have hb' : ∀ p ∈ bufs, PacketSays p (smolBytes p) := fun p hp => (hb p hp).2
          have ho' : Tokio.sameOptions (Options.build clientId calls) net.options := by rw [Smol.step_options hn]; exact ho
          obtain ⟨hv, hg'⟩ := Smol.step_vstep hg hn
          -- what is left in the buffer
          have hbuf' : (SmolWire.advance s.wire s.buffer op obs).2 = [] ∨ (SmolWire.advance s.wire s.buffer op obs).2 = s.buffer := by
            cases op <;> simp only [SmolWire.advance] <;> split <;> simp
          obtain ⟨bufs', hbb, hbe⟩ : ∃ bufs' : List Packet, (∀ p ∈ bufs', Says p) ∧
              (SmolWire.advance s.wire s.buffer op obs).2 = bufs'.flatMap smolBytes := by
            rcases hbuf' with h | h
            · exact ⟨[], by simp, by simp [h]⟩
            · exact ⟨bufs, hb, h.trans hbuf⟩
          obtain ⟨h1, h2, h3⟩ := ih ⟨net, _, _⟩ (smolSentStep r (op, obs)) bufs' (hs.vstep hv hc1) hg' ho'
            (smolSentStep_says hr hsay) hbb hbe hc2
          refine ⟨fun hw hB hd => h1 ?_ ?_ fun op hop => hd op (by simp [hop]), h2, fun n hcut => ?_⟩
          · have other : (if SmolWire.writes obs = true then (s.wire ++ (s.buffer ++ (Obs.sent obs).flatMap smolBytes), [])
                else (s.wire, s.buffer)) = ((r ++ writtenIn obs).flatMap smolBytes, ([] : Bytes)) := by
              split
              · simp [hw, hB, sent_eq]
              · rename_i hw'
                rw [smol_no_writes (by simpa using hw')]
                simp [hw, hB]
            cases op <;> simp only [SmolWire.advance, smolSentStep, connectedIn_eq] <;>
              first | exact congrArg Prod.fst other | (by_cases hc : hasConnected obs = true <;> simp [hw, hB, sent_eq, hc])
          · rcases hbuf' with h | h
            · exact h
            · exact h.trans hB
          · rw [List.countP_cons_of_neg (by simp [smolCutsWrite])]
            refine h3 n (?_ : Cuts n (SmolWire.advance s.wire s.buffer op obs).1)
            have other : Cuts n (if SmolWire.writes obs = true then (s.wire ++ (s.buffer ++ (Obs.sent obs).flatMap smolBytes), ([] : Bytes))
                else (s.wire, s.buffer)).1 := by
              split
              · rw [sent_eq, ← List.append_assoc, hbuf]
                exact (hcut.wholes hb').wholes hsay'
              · exact hcut
            cases op <;> simp only [SmolWire.advance, sent_eq, connectedIn_eq]
            case connect =>
              by_cases hc : hasConnected obs = true
              · simpa [hc] using (Cuts.nil (n := n)).wholes hsay'
              · simpa [hc] using hcut
            all_goals exact other
        · cases e
      | drop b d T =>
        have hd := SmolWire.drop_facts (show s.drop b d T = some (s', obs) from e)
        have hw := hd.wire
        cases d with
        | handling =>
          obtain ⟨hw, hB⟩ := hw
          obtain ⟨h1, h2, h3⟩ := ih s' r bufs (hs.quietly hd.sys) (hd.good hg) (hd.options ▸ ho) hr hb (hB.trans hbuf) hc2
          refine ⟨fun hw' hB' hd' => h1 (hw.trans hw') (hB.trans hB') fun op hop => hd' op (by simp [hop]), h2, fun n hn => ?_⟩
          rw [List.countP_cons_of_neg (by simp [smolCutsWrite])]
          exact h3 n (hw ▸ hn)
        | writing k =>
          obtain ⟨ps, hB, hw, hp⟩ := hw
          have hall : ∀ p ∈ bufs ++ ps, Says p := by
            intro p hp'
            rw [List.mem_append] at hp'
            rcases hp' with hp' | hp'
            · exact hb p hp'
            · exact (hp hg _ sendable_closed hs.held p hp').says
          have hB' : s'.buffer = (bufs ++ ps).flatMap smolBytes := by rw [hB, hbuf, List.flatMap_append]
          obtain ⟨h1, h2, h3⟩ := ih s' r (bufs ++ ps) (hs.quietly hd.sys) (hd.good hg) (hd.options ▸ ho) hr hall hB' hc2
          refine ⟨fun _ _ hd' => ?_, h2, fun n hn => ?_⟩
          · have := hd' _ (.head _)
            simp [smolCutsWrite] at this
          · rw [List.countP_cons_of_pos (by simp [smolCutsWrite])]
            have := h3 (n + 1) (by rw [hw, hB']; exact hn.broken (fun p hp => (hall p hp).2) k)
            rw [Nat.add_right_comm] at this
            exact this
      | dropConnect i d =>
        obtain ⟨i', obs', -, hn, -, hsame, hw, hB⟩ := SmolWire.dropConnect_failed e
        have ho' : Tokio.sameOptions (Options.build clientId calls) s'.net.options := by rw [Smol.step_options hn]; exact ho
        obtain ⟨hv, hg'⟩ := Smol.step_vstep hg hn
        obtain ⟨h1, h2, h3⟩ := ih s' r bufs (hs.vstep hv fun q id p h => absurd h (hsame.called _).2) hg' ho' hr hb (hB.trans hbuf) hc2
        refine ⟨fun hw' hB' hd' => h1 (hw.trans hw') (hB.trans hB') fun op hop => hd' op (by simp [hop]), h2, fun n hn => ?_⟩
        rw [List.countP_cons_of_neg (by simp [smolCutsWrite])]
        exact h3 n (hw ▸ hn)

/-! ## a new connection -/

theorem tokio_wire_legalSys {clientId : Str} {calls : List Setter} (t : Nat) (ops : List TokioWireOp)
    (hcalls : ∀ q id p, .user (.called q id p) ∈ ((TokioWire.new (Options.build clientId calls) t).runOps ops).2 → LegalCall q) :
    LegalSys (Options.build clientId calls) ((TokioWire.new (Options.build clientId calls) t).runOps ops).1.net.sys ∧
    Tokio.sameOptions (Options.build clientId calls) ((TokioWire.new (Options.build clientId calls) t).runOps ops).1.net.options := by
  refine history_induct TokioWire.step (fun s tr => (∀ q id p, .user (.called q id p) ∈ tr → LegalCall q) →
    LegalSys (Options.build clientId calls) s.net.sys ∧ Tokio.sameOptions (Options.build clientId calls) s.net.options)
    (fun _ => ⟨.init _, .refl _⟩) ?_ ops hcalls
  intro s tr op s' o ih hs hc
  obtain ⟨h1, h2⟩ := ih fun q id p h => hc q id p (List.mem_append_left _ h)
  cases op with
  | op op =>
    simp only [TokioWire.step] at hs
    split at hs
    · rename_i hn
      cases hs
      refine ⟨h1.vstep (Tokio.step_vstep hn) fun q id p h => hc q id p (List.mem_append_right _ h), ?_⟩
      obtain ⟨k, hk⟩ := h2
      obtain ⟨k', hk'⟩ := Tokio.step_options hn
      exact ⟨k', by rw [hk', hk]⟩
    · cases hs
  | drop b d lost T =>
    have hd := TokioWire.drop_facts (show s.drop b d lost T = some (s', o) from hs)
    exact ⟨h1.quietly hd.sys, hd.options ▸ h2⟩
  | dropConnect i d =>
    obtain ⟨i', obs', -, hn, -, hsame, -⟩ := TokioWire.dropConnect_failed hs
    refine ⟨h1.vstep (Tokio.step_vstep hn) fun q id p h => absurd h (hsame.called _).2, ?_⟩
    obtain ⟨k, hk⟩ := h2
    obtain ⟨k', hk'⟩ := Tokio.step_options hn
    exact ⟨k', by rw [hk', hk]⟩

theorem smol_wire_legalSys {clientId : Str} {calls : List Setter} (checks : Bool) (t : Nat) (ops : List SmolWireOp)
    (hcalls : ∀ q id p, .user (.called q id p) ∈ ((SmolWire.new checks (Options.build clientId calls) t).runOps ops).2 → LegalCall q) :
    LegalSys (Options.build clientId calls) ((SmolWire.new checks (Options.build clientId calls) t).runOps ops).1.net.sys ∧
    ((SmolWire.new checks (Options.build clientId calls) t).runOps ops).1.net.Good ∧
    ((SmolWire.new checks (Options.build clientId calls) t).runOps ops).1.net.options = Options.build clientId calls := by
  refine history_induct SmolWire.step (fun s tr => (∀ q id p, .user (.called q id p) ∈ tr → LegalCall q) →
    LegalSys (Options.build clientId calls) s.net.sys ∧ s.net.Good ∧ s.net.options = Options.build clientId calls)
    (fun _ => ⟨.init _, ⟨rfl, by simp [SmolWire.new, Smol.new]⟩, rfl⟩) ?_ ops hcalls
  intro s tr op s' o ih hs hc
  obtain ⟨h1, h2, h3⟩ := ih fun q id p h => hc q id p (List.mem_append_left _ h)
  cases op with
  | op op =>
    simp only [SmolWire.step] at hs
    split at hs
    · rename_i hn
      cases hs
      obtain ⟨hv, hg⟩ := Smol.step_vstep h2 hn
      exact ⟨h1.vstep hv fun q id p h => hc q id p (List.mem_append_right _ h), hg, (Smol.step_options hn).trans h3⟩
    · cases hs
  | drop b d T =>
    have hd := SmolWire.drop_facts (show s.drop b d T = some (s', o) from hs)
    exact ⟨h1.quietly hd.sys, hd.good h2, hd.options.trans h3⟩
  | dropConnect i d =>
    obtain ⟨i', obs', -, hn, -, hsame, -⟩ := SmolWire.dropConnect_failed hs
    obtain ⟨hv, hg⟩ := Smol.step_vstep h2 hn
    exact ⟨h1.vstep hv fun q id p h => absurd h (hsame.called _).2, hg, (Smol.step_options hn).trans h3⟩

/-- a connection that comes about begins with CONNECT -/
theorem VStep.connected_head {fl v obs w} (h : VStep fl v obs w) (hc : hasConnected obs = true) :
    ∃ c a b rest, obs = .wrote (.connect c) a b :: rest := by
  have noShown : ∀ {p : Packet} {b : Bool}, hasConnected (shownObs p b) = false := by intro p b; cases b <;> rfl
  have noWrotes : ∀ {T : Times} {ps : List Packet}, hasConnected (wrotes T ps) = false := by
    intro T ps; simp [hasConnected, wrotes]
  have app : ∀ a b : List Obs, hasConnected (a ++ b) = (hasConnected a || hasConnected b) := by simp [hasConnected]
  cases h
  case established => exact ⟨_, _, _, _, rfl⟩
  case establishFail => exact ⟨_, _, _, _, rfl⟩
  case connectFailed ho =>
    rcases ho with rfl | ⟨_, _, _, rfl⟩
    · simp [hasConnected] at hc
    · exact ⟨_, _, _, _, rfl⟩
  case accepted => rw [app, noShown, noWrotes] at hc; cases hc
  case acceptedFail => rw [app, noShown] at hc; simp [hasConnected] at hc
  all_goals simp [hasConnected] at hc

/-! ## what a server finds -/

theorem connected_self {s s' : Sys} {c c' : ConnAck} {ps : List Packet}
    (h : s.step (.connAck c) = some (s', .connected c' ps)) : s.step (.connAck c) = some (s', .connected c ps) := by
  obtain rfl : c' = c := by
    rcases Sys.step_connAck_event h with ⟨_, h⟩ | h | ⟨_, h⟩ | h <;> simp_all
  exact h

/-- in any initial part of the bytes -/
theorem wireIs_prefix {bs : Bytes} {qs : List Packet} (h : WireIs bs qs) (k : Nat) {ps : List Packet} {rest : Bytes}
    (h' : Stream OnWire (bs.take k) ps rest) : ps <+: qs := by
  obtain ⟨tail, ht⟩ : ∃ tail, bs = bs.take k ++ tail := ⟨bs.drop k, by simp⟩
  generalize bs.take k = a at h' ht
  subst ht
  clear k
  have key : ∀ {a rest : Bytes} {ps : List Packet}, Stream OnWire a ps rest → ∀ {tail r : Bytes} {qs : List Packet},
      Stream OnWire (a ++ tail) qs r → r = [] → ps <+: qs := by
    intro a rest ps h
    induction h with
    | nil => intro _ _ _ _ _; exact List.nil_prefix
    | @cons a a' rest p ps h1 _ ih =>
      intro tail r qs h2 hr
      obtain ⟨f, rfl, hf⟩ := h1
      cases h2 with
      | nil =>
        obtain ⟨x, y, z, rfl, -⟩ := hf
        simp at hr
      | cons h3 h4 =>
        obtain ⟨g, e, hg⟩ := h3
        rw [List.append_assoc] at e
        obtain ⟨rfl, rfl, rfl⟩ := packet_det hf hg e
        exact List.cons_prefix_cons.2 ⟨rfl, ih h4 hr⟩
  exact key h' h rfl

end Mqrstt
