import Verif.Proof.Positions
/-! # Lemmas for the properties of the networks -/

namespace Mqrstt
open Mqrstt Mqrstt.Spec _root_.Spec Mqrstt.Props

theorem _root_.Mqrstt.Spec.IsTrace.vrun {tr : List Obs} (h : IsTrace tr) : ∃ fl o t v, VRun fl (View.init o t) tr v := by
  cases h with
  | tokio o t ops h => exact ⟨_, o, t, _, by subst h; exact Tokio.vrun o t ops⟩
  | smol checks o t ops h => exact ⟨_, o, t, _, by subst h; exact Smol.vrun checks o t ops⟩

theorem _root_.Mqrstt.Spec.IsTrace.pos {tr : List Obs} (h : IsTrace tr) {P : List Obs → Obs → List Obs → Prop}
    (hP : ∀ fl v o w, v.sys.Users → VStep fl v o w → AllPos P o) {pre post : List Obs} {x : Obs}
    (e : tr = pre ++ x :: post) : ∃ tr1 o1 o2 tr2, P o1 x o2 ∧ pre = tr1 ++ o1 ∧ post = o2 ++ tr2 := by
  obtain ⟨fl, o, t, v, h⟩ := h.vrun
  exact h.pos (fun tr1 v o w h1 h2 => hP fl v o w h1.users h2) rfl e

theorem onlyLastPacket {fl v o w} (h : VStep fl v o w) {e : End} (he : .ended e ∈ o) :
    OnlyLastPacket v.sys w.sys o e ∧ w.live = false ∧ w.running = false ∧ (e ≠ .panicked → w.sys.alive = true) := by
  cases h
  case noNetwork hr ha hl => exact ⟨.inl rfl, hl, hr, fun _ => ha⟩
  case accepted => rename_i reply shown _ _ _; cases shown <;> cases reply <;> simp [shownObs, wrotes] at he
  case acceptedFail hR _ _ hs =>
    refine ⟨.inr (.inl ⟨_, _, ?_, hs⟩), rfl, rfl, fun _ => Sys.step_stays_alive hs hR.alive (by simp) (by simp)⟩
    rename_i shown _ _ _
    cases shown <;> simp [shownObs]
  case refusedPacket hR _ hs =>
    exact ⟨.inr (.inl ⟨_, _, by simp, hs⟩), rfl, rfl, fun _ => Sys.step_stays_alive hs hR.alive (by simp) (by simp)⟩
  case readPanic hR _ hs => exact ⟨.inr (.inl ⟨_, _, by simp, hs⟩), rfl, rfl, fun h => absurd (by simpa using he) h⟩
  case crashed => exact ⟨.inr (.inr (.inr ⟨by simpa using he, rfl⟩)), rfl, rfl, fun h => absurd (by simpa using he) h⟩
  case outFail hR _ hs =>
    exact ⟨.inr (.inr (.inl ⟨_, _, hs⟩)), rfl, rfl, fun _ => Sys.step_stays_alive hs hR.alive (by simp) (by simp)⟩
  case outDisc hR hs _ =>
    exact ⟨.inr (.inr (.inl ⟨_, _, hs⟩)), rfl, rfl, fun _ => Sys.step_stays_alive hs hR.alive (by simp) (by simp)⟩
  case outErr hR hs =>
    exact ⟨.inr (.inr (.inl ⟨_, _, hs⟩)), rfl, rfl, fun _ => Sys.step_stays_alive hs hR.alive (by simp) (by simp)⟩
  case outPanic hR _ hs => exact ⟨.inr (.inr (.inl ⟨_, _, hs⟩)), rfl, rfl, fun h => absurd (by simpa using he) h⟩
  case connectFailed ho => rcases ho with rfl | ⟨_, _, _, rfl⟩ <;> simp at he
  case established => simp [wrotes] at he
  case establishFail => simp [wrotes] at he
  all_goals first
    | (simp at he; done)
    | (refine ⟨.inl rfl, rfl, rfl, fun _ => ?_⟩; have := View.Ready.alive ‹View.Ready v _›; exact this)

/-- the packets in the queue were submitted -/
theorem queue_submitted {fl o t tr v} (h : VRun fl (View.init o t) tr v) (ha : v.sys.alive = true) :
    ∀ p ∈ v.sys.queue, p ∈ submittedIn tr := by
  obtain ⟨ops, hc⟩ := h.contains
  obtain ⟨⟨rest, hr, hq⟩, -⟩ := C39_fifo o.config ops
  intro p hp
  rw [hc.sys] at ha hp
  rw [hc.submitted, hr, hq ha]
  simp [hp]

theorem suffix_left {α} {a b : List α} (c : List α) (h : a <:+ b) : a <:+ c ++ b := h.trans (List.suffix_append _ _)
theorem prefix_right {α} {a b : List α} (c : List α) (h : a <+: b) : a <+: b ++ c := h.trans (List.prefix_append _ _)

theorem outgoingDisconnect {fl v1 v2 o1 o2 d a b} (h2 : VStep fl v1 (o1 ++ .ended (.status .outgoingDisconnect) :: o2) v2)
    (hd : [.wrote (.disconnect d) a b] <:+ o1) : v1.sys.alive = true ∧ .disconnect d ∈ v1.sys.queue := by
  generalize ho : o1 ++ Obs.ended (.status .outgoingDisconnect) :: o2 = ob at h2
  cases h2
  case outDisc hR hs hi =>
    rename_i p _
    obtain ⟨p', rest, hq, ⟨-, h' | ⟨_, h'⟩ | h'⟩ | ⟨h', -⟩⟩ := Sys.step_write_event hs <;> cases h'
    refine ⟨hR.alive, ?_⟩
    rw [hq]
    match o1 with
    | [] => simp at ho
    | [x] =>
      simp at ho
      obtain ⟨l, hl⟩ := hd
      rw [ho.1] at hl
      cases l with
      | nil => simp at hl; simp [hl.1]
      | cons x l => have := congrArg List.length hl; simp at this
    | x :: y :: z => simp at ho
  all_goals exfalso
  case accepted =>
    have : Obs.ended (.status .outgoingDisconnect) ∈ o1 ++ Obs.ended (.status .outgoingDisconnect) :: o2 := by simp
    rw [ho] at this
    rename_i reply shown _ _ _
    cases shown <;> cases reply <;> simp [shownObs, wrotes] at this
  case acceptedFail =>
    have : Obs.ended (.status .outgoingDisconnect) ∈ o1 ++ Obs.ended (.status .outgoingDisconnect) :: o2 := by simp
    rw [ho] at this
    rename_i shown _ _ _ _ _
    cases shown <;> simp [shownObs] at this
  case connectFailed hoo =>
    have : Obs.ended (.status .outgoingDisconnect) ∈ o1 ++ Obs.ended (.status .outgoingDisconnect) :: o2 := by simp
    rw [ho] at this
    rcases hoo with rfl | ⟨_, _, _, rfl⟩ <;> simp at this
  all_goals
    have : Obs.ended (.status .outgoingDisconnect) ∈ o1 ++ Obs.ended (.status .outgoingDisconnect) :: o2 := by simp
    rw [ho] at this
    simp [wrotes] at this

end Mqrstt
