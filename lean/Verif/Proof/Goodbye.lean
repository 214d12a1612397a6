import Verif.Proof.Fair
import Verif.Proof.NetLink
import Verif.Spec.Goodbye
/-! # What a step does to the queue -/

namespace Mqrstt
open Spec Props

/-- the three things a step can do with the queue -/
inductive Moves (v : View) (o : List Obs) (w : View) : Prop where
  | grows (hq : w.sys.queue = v.sys.queue ++ submittedIn o) (hf : freshIn o = []) (hl : leftIn o = 0)
  | takes (p : Packet) (rest : List Packet) (hq : v.sys.queue = p :: rest) (hq' : w.sys.queue = rest)
      (hs : submittedIn o = []) (hf : o.all (fun x => !fails x) = true → freshIn o = [p].filter isFresh)
      (hl : leftIn o = (if p.isDisconnect then 1 else 0) ∨ leftIn o = 0)
      (ha : v.sys.alive = true)
  | dead (hd : w.sys.alive = false) (hf : o.all (fun x => !fails x) = true → freshIn o = []) (hl : leftIn o = 0)

theorem leftIn_append (a b : List Obs) : leftIn (a ++ b) = leftIn a + leftIn b := by simp [leftIn]

theorem leftIn_wrotes (T : Times) (ps : List Packet) : leftIn (wrotes T ps) = 0 := by
  induction ps with
  | nil => rfl
  | cons p ps ih => exact ih

theorem leftIn_shown (p : Packet) (b : Bool) : leftIn (shownObs p b) = 0 := by cases b <;> rfl

theorem Sys.write_takes {s s' : Sys} {ok : Bool} {e : Event} (h : s.step (.write ok) = some (s', e)) (hp : e ≠ .panicked) :
    ∃ p, s.queue = p :: s'.queue ∧ (e = .written p ∨ (∃ x, e = .writtenError p x) ∨ e = .writeFailed p) := by
  simp only [Sys.step] at h
  split at h
  · split at h
    · simp at h
    · rename_i p rest hq
      refine ⟨p, ?_⟩
      repeat' split at h
      all_goals
        simp only [Option.some.injEq, Prod.mk.injEq] at h
        obtain ⟨rfl, rfl⟩ := h
        simp_all
  · simp at h

theorem VStep.moves {fl v o w} (h : VStep fl v o w) : Moves v o w := by
  cases h
  case client op sys e hc hs =>
    refine .grows ?_ (client_user (Sys.step_ofClient hc hs)).2.2 rfl
    rw [(client_user (Sys.step_ofClient hc hs)).2.1]
    exact Sys.step_queue hs (by rintro ok rfl; simp [Op.ofClient] at hc)
  case drop hs =>
    obtain ⟨rfl, -, -⟩ := Sys.step_drop hs
    exact .grows (Sys.step_queue hs (by simp)) rfl rfl
  case accepted hR hp hs =>
    refine .grows ?_ ?_ ?_
    · rw [submittedIn_append, submittedIn_shown, submittedIn_wrotes]; exact Sys.step_queue hs (by simp)
    · rw [freshIn_append, freshIn_shown, freshIn_wrotes, answer_filter (Sys.step_answer hs)]; rfl
    · rw [leftIn_append, leftIn_shown, leftIn_wrotes]
  case acceptedFail hR hp _ hs =>
    refine .grows ?_ ?_ ?_
    · rw [submittedIn_append, submittedIn_shown]; exact Sys.step_queue hs (by simp)
    · rw [freshIn_append, freshIn_shown]; rfl
    · rw [leftIn_append, leftIn_shown]; rfl
  case refusedPacket hs => exact .grows (Sys.step_queue hs (by simp)) rfl rfl
  case readPanic hs => exact .grows (Sys.step_queue hs (by simp)) rfl rfl
  case crashed h => exact .dead rfl (fun _ => rfl) rfl
  case connectCrashed ha _ => exact .dead rfl (fun _ => rfl) rfl
  case outFail hR he hs =>
    obtain ⟨p, hq, -⟩ := Sys.write_takes hs (by simp)
    exact .takes p _ hq rfl rfl (fun ha => by rename_i e; have := he.1; cases e <;> simp_all [fails]) (.inr rfl) hR.alive
  case outOk hR hs hd =>
    obtain ⟨p, hq, he⟩ := Sys.write_takes hs (by simp)
    simp at he
    subst he
    exact .takes _ _ hq rfl rfl (fun _ => rfl) (.inr rfl) hR.alive
  case outDisc hR hs hd =>
    obtain ⟨p, hq, he⟩ := Sys.write_takes hs (by simp)
    simp at he
    subst he
    exact .takes _ _ hq rfl rfl (fun _ => rfl) (.inl (by rw [hd]; rfl)) hR.alive
  case outErr hR hs =>
    obtain ⟨p, hq, he⟩ := Sys.write_takes hs (by simp)
    exact .takes p _ hq rfl rfl (fun ha => by simp [fails] at ha) (.inr rfl) hR.alive
  case outPanic hR hq hs =>
    exact .dead (Sys.step_panicked_alive hs) (fun ha => by simp [fails] at ha) rfl
  case connectFailed ho =>
    rcases ho with rfl | ⟨_, _, _, rfl⟩ <;> exact .grows (List.append_nil _).symm rfl rfl
  case established hs hw _ =>
    refine .grows ?_ ?_ ?_
    · rw [submittedIn_append, submittedIn_append, submittedIn_wrotes]; exact Sys.step_queue hs (by simp)
    · rw [freshIn_append, freshIn_append, freshIn_wrotes, resent_filter (Sys.step_connected_resent hs) hw]; rfl
    · rw [leftIn_append, leftIn_append, leftIn_wrotes]; rfl
  case establishFail hs hw hnone =>
    refine .grows ?_ ?_ ?_
    · rw [submittedIn_append, submittedIn_append, submittedIn_wrotes]; exact Sys.step_queue hs (by simp)
    · rw [freshIn_append, freshIn_append, freshIn_wrotes, resent_filter (Sys.step_connected_resent hs) hw]; rfl
    · rw [leftIn_append, leftIn_append, leftIn_wrotes]; rfl
  case establishErr hs => exact .grows (Sys.step_queue hs (by simp)) rfl rfl
  case establishPanic hs => exact .grows (Sys.step_queue hs (by simp)) rfl rfl
  all_goals exact .grows (List.append_nil _).symm rfl rfl

/-- a step in which `run` ends because of the user's DISCONNECT -/
theorem VStep.leaving {fl v o w} (h : VStep fl v o w) (hm : .ended (.status .outgoingDisconnect) ∈ o) :
    ∃ d a b rest, o = [.wrote (.disconnect d) a b, .ended (.status .outgoingDisconnect)] ∧
      v.sys.queue = .disconnect d :: rest ∧ v.sys.alive = true := by
  cases h
  case outDisc T p sys hR hs hd =>
    obtain ⟨q, hq, he⟩ := Sys.write_takes hs (by simp)
    simp at he
    subst he
    cases p <;> simp only [Packet.isDisconnect, Bool.false_eq_true] at hd
    exact ⟨_, _, _, _, rfl, hq, hR.alive⟩
  case accepted =>
    rename_i shown _ _ _
    cases shown <;> simp [shownObs, wrotes] at hm
  case acceptedFail =>
    rename_i shown _ _ _ _ _
    cases shown <;> simp [shownObs] at hm
  case connectFailed ho => rcases ho with rfl | ⟨_, _, _, rfl⟩ <;> simp at hm
  all_goals simp [wrotes, keepAliveDisconnect] at hm

theorem VStep.alive_back {fl v o w} (h : VStep fl v o w) (ha : w.sys.alive = true) : v.sys.alive = true := by
  rcases h.linked with ⟨h1, -⟩ | ⟨op, e, hl⟩
  · rw [← h1]; exact ha
  · exact Sys.step_alive hl.step ha

/-- everything taken from the queue is accounted for -/
structure Flushed (tr : List Obs) (v : View) : Prop where
  flushed : tr.all (fun x => !fails x) = true →
    ∃ taken rest, submittedIn tr = taken ++ rest ∧ freshIn tr = taken.filter isFresh ∧
      (v.sys.alive = true → rest = v.sys.queue)
  left : ∃ taken rest, submittedIn tr = taken ++ rest ∧ leftIn tr ≤ (taken.filter Packet.isDisconnect).length ∧
      (v.sys.alive = true → rest = v.sys.queue)

theorem VRun.flushed {fl o t tr v} (h : VRun fl (View.init o t) tr v) : Flushed tr v := by
  refine h.induct Flushed ⟨fun _ => ⟨[], [], rfl, rfl, fun _ => rfl⟩, ⟨[], [], rfl, Nat.le_refl _, fun _ => rfl⟩⟩ ?_
  rintro tr w ob w' - ⟨h1, h2⟩ hs
  have hb := hs.alive_back
  constructor
  · intro hall
    rw [List.all_append, Bool.and_eq_true] at hall
    obtain ⟨ta, re, e1, e2, e3⟩ := h1 hall.1
    cases hs.moves with
    | grows hq hf hl =>
      exact ⟨ta, re ++ submittedIn ob, by rw [submittedIn_append, e1, List.append_assoc], by rw [freshIn_append, hf, e2, List.append_nil],
        fun ha => by rw [e3 (hb ha), hq]⟩
    | takes p rest hq hq' hs hf hl ha =>
      refine ⟨ta ++ [p], rest, ?_, ?_, fun _ => hq'.symm⟩
      · rw [submittedIn_append, e1, e3 ha, hq, hs]; simp
      · rw [freshIn_append, e2, hf hall.2, List.filter_append]
    | dead hd hf hl =>
      exact ⟨ta, re ++ submittedIn ob, by rw [submittedIn_append, e1, List.append_assoc],
        by rw [freshIn_append, hf hall.2, e2, List.append_nil], fun ha => by rw [hd] at ha; cases ha⟩
  · obtain ⟨ta, re, e1, e2, e3⟩ := h2
    cases hs.moves with
    | grows hq hf hl =>
      exact ⟨ta, re ++ submittedIn ob, by rw [submittedIn_append, e1, List.append_assoc], by rw [leftIn_append, hl]; exact e2,
        fun ha => by rw [e3 (hb ha), hq]⟩
    | takes p rest hq hq' hs hf hl ha =>
      refine ⟨ta ++ [p], rest, ?_, ?_, fun _ => hq'.symm⟩
      · rw [submittedIn_append, e1, e3 ha, hq, hs]; simp
      · rw [leftIn_append, List.filter_append, List.length_append]
        rcases hl with hl | hl
        · rw [hl]; cases hd : p.isDisconnect <;> simp [hd] <;> omega
        · omega
    | dead hd hf hl =>
      exact ⟨ta, re ++ submittedIn ob, by rw [submittedIn_append, e1, List.append_assoc], by rw [leftIn_append, hl]; exact e2,
        fun ha => by rw [hd] at ha; cases ha⟩

end Mqrstt
