import Verif.Model.Drop
import Verif.Spec.Written
import Verif.Proof.Bytes
import Verif.Proof.Unambiguous
/-! # Packets, their bytes, and what is written in a step -/

namespace Mqrstt
open Mqrstt.Spec _root_.Spec

/-- one reading only -/
theorem wireIs_unique {bs : Bytes} {ps qs : List Packet} (h : WireIs bs ps) (h' : WireIs bs qs) : ps = qs := by
  have key : ∀ {bs r : Bytes} {ps : List Packet}, Stream OnWire bs ps r → r = [] → ∀ {qs}, Stream OnWire bs qs [] → ps = qs := by
    intro bs r ps h
    induction h with
    | nil bs =>
      rintro rfl qs h'
      generalize e : ([] : Bytes) = r at h'
      cases h' with
      | nil => rfl
      | cons h1 h2 =>
        obtain ⟨f, e', hf⟩ := h1
        obtain ⟨x, y, z, rfl, -⟩ := hf
        rw [← e] at e'
        simp at e'
    | @cons bs bs' rest p ps h hs ih =>
      rintro rfl qs h'
      obtain ⟨f, e, hf⟩ := h
      generalize hr : ([] : Bytes) = r at h' ih
      cases h' with
      | nil =>
        subst hr
        obtain ⟨x, y, z, rfl, -⟩ := hf
        simp at e
      | cons h1 h2 =>
        obtain ⟨g, e', hg⟩ := h1
        rw [e] at e'
        obtain ⟨rfl, rfl, rfl⟩ := packet_det hf hg e'
        subst hr
        rw [ih rfl h2]
  exact key h rfl h'

/-- the bytes of packets which are written as MQTT says -/
theorem wireIs_of {bytes : Packet → Bytes} {ps : List Packet} (h : ∀ p ∈ ps, PacketSays p (bytes p)) :
    WireIs (ps.flatMap bytes) ps := by
  induction ps with
  | nil => exact .nil _
  | cons p ps ih =>
    refine .cons (bs' := ps.flatMap bytes) ⟨bytes p, by simp, h p (by simp)⟩ (ih fun q hq => h q (by simp [hq]))

theorem mem_writtenIn {p : Packet} {tr : List Obs} (h : p ∈ writtenIn tr) : ∃ a b, .wrote p a b ∈ tr := by
  simp only [writtenIn, List.mem_filterMap] at h
  obtain ⟨x, hx, e⟩ := h
  cases x <;> simp at e
  subst e
  exact ⟨_, _, hx⟩

/-! ## the wire -/

theorem sent_eq (obs : List Obs) : Obs.sent obs = writtenIn obs := rfl
theorem connectedIn_eq (obs : List Obs) : Obs.connectedIn obs = hasConnected obs := rfl

theorem smol_no_writes {obs : List Obs} (h : SmolWire.writes obs = false) : writtenIn obs = [] := by
  simp only [SmolWire.writes, Bool.or_eq_false_iff] at h
  simp only [writtenIn, List.filterMap_eq_nil_iff]
  intro x hx
  have := List.any_eq_false.1 h.1 x hx
  cases x <;> simp_all

theorem received_self {s s' : Sys} {p q : Packet} {r : Option Packet} {b : Bool}
    (h : s.step (.receive p) = some (s', .received q r b)) : s.step (.receive p) = some (s', .received p r b) := by
  have e := h
  simp only [Sys.step] at e
  split at e
  · split at e <;> cases e
    exact h
  · cases e

end Mqrstt
