import Verif.Proof.NetHelp
import Verif.Spec.Answers
/-!
# Answers follow at once
-/

namespace Mqrstt
open Mqrstt.Spec

theorem AnsweredNext.more {p r : Packet} {o : List Obs} (h : AnsweredNext p r o) (l : List Obs) : AnsweredNext p r (o ++ l) := by
  cases h
  · exact .answered
  · exact .shown
  · exact .ended
  · exact .shownEnded
  · exact .notConnAck

def PAnswer (_ : List Obs) (x : Obs) (o2 : List Obs) : Prop := ∀ p, x = .read p → ∀ r, answerTo p = some r → AnsweredNext p r o2

theorem answer_is {p : Packet} {reply : Option Packet} {shown : Bool} {r : Packet} (h : Sys.Answer p reply shown)
    (hr : answerTo p = some r) : reply = some r := by
  cases h <;> simp_all [answerTo]

theorem VStep.answersNext {fl v o w} (h : VStep fl v o w) : AllPos PAnswer o := by
  cases h
  case accepted hs =>
    rename_i p _ reply shown _ _
    have ha := Sys.step_answer hs
    have key : ∀ r, answerTo p = some r → reply = some r := fun r hr => answer_is ha hr
    cases shown with
    | true =>
      cases reply with
      | none => simp [shownObs, wrotes, PAnswer]; intro r hr; exact absurd (key r hr) (by simp)
      | some q => simp [shownObs, wrotes, PAnswer]; intro r hr; cases key r hr; exact .shown
    | false =>
      cases reply with
      | none => simp [shownObs, wrotes, PAnswer]; intro r hr; exact absurd (key r hr) (by simp)
      | some q => simp [shownObs, wrotes, PAnswer]; intro r hr; cases key r hr; exact .answered
  case acceptedFail hs =>
    rename_i p _ reply shown _ _ _ _
    cases shown with
    | true => simp [shownObs, PAnswer]; intro r hr; exact .shownEnded
    | false => simp [shownObs, PAnswer]; intro r hr; exact .ended
  case connectFailed ho => rcases ho with rfl | ⟨_, _, _, rfl⟩ <;> simp [PAnswer]
  case established =>
    simp only [List.cons_append, List.nil_append, allPos_cons]
    refine ⟨by simp [PAnswer], by simp [PAnswer, answerTo], by simp [PAnswer], ?_⟩
    exact allPos_wrotes (by simp [PAnswer]) (by simp [PAnswer])
  case establishFail =>
    simp only [List.cons_append, List.nil_append, allPos_cons]
    refine ⟨by simp [PAnswer], by simp [PAnswer, answerTo], by simp [PAnswer], ?_⟩
    exact allPos_wrotes (by simp [PAnswer]) (by simp [PAnswer])
  case refusedPacket => simp [PAnswer]; intro r hr; exact .ended
  case readPanic => simp [PAnswer]; intro r hr; exact .ended
  case notConnAck => simp [PAnswer]; intro r hr; exact .notConnAck
  all_goals simp [PAnswer, answerTo]

/-! ## unfinished messages -/

theorem unfinished_append (q : QoS) (a b : List Obs) : unfinished q (a ++ b) = b.foldl (unfinishedStep q) (unfinished q a) :=
  List.foldl_append

/-- at most one QoS 1 message is unanswered, and none on a live connection between the steps -/
structure OneOpen (ids : List UInt16) (v : View) : Prop where
  one : ids.length ≤ 1
  live : v.live = true → ids = []

theorem wrotes_none (T : Times) (ws : List Packet) : (wrotes T ws).foldl (unfinishedStep .atLeastOnce) [] = [] := by
  induction ws with
  | nil => rfl
  | cons p ws ih =>
    simp only [wrotes, List.map_cons, List.foldl_cons]
    have : unfinishedStep .atLeastOnce [] (.wrote p T.fire T.first) = [] := by cases p <;> simp [unfinishedStep]
    rw [this]
    exact ih

theorem wrote_le (q : QoS) (ids : List UInt16) (p : Packet) (a b : Nat) : (unfinishedStep q ids (.wrote p a b)).length ≤ ids.length := by
  cases p <;> simp only [unfinishedStep] <;> (try split) <;> (first | exact List.length_erase_le | simp)

theorem read_le (q : QoS) (p : Packet) : (unfinishedStep q [] (.read p)).length ≤ 1 := by
  cases p <;> simp only [unfinishedStep] <;> (try split) <;> (try split) <;> simp

theorem wrote_none (q : QoS) (p : Packet) (a b : Nat) : unfinishedStep q [] (.wrote p a b) = [] :=
  List.length_eq_zero_iff.1 (Nat.le_zero.1 (wrote_le q [] p a b))

theorem OneOpen.step {ids : List UInt16} {fl v o w} (h : OneOpen ids v) (hs : VStep fl v o w) :
    OneOpen (o.foldl (unfinishedStep .atLeastOnce) ids) w := by
  have none {T} (hR : v.Ready T) : ids = [] := h.live hR.live
  cases hs
  case client => exact ⟨h.one, h.live⟩
  case drop => exact ⟨h.one, fun hl => by cases hl⟩
  case noNetwork => exact ⟨h.one, h.live⟩
  case start hl => exact ⟨h.one, h.live⟩
  case quiet => exact ⟨h.one, h.live⟩
  case cancel => exact ⟨h.one, h.live⟩
  case wait => exact ⟨h.one, h.live⟩
  case readPing hR => exact ⟨h.one, h.live⟩
  case readPingFail => exact ⟨h.one, fun hl => by cases hl⟩
  case readDisc => exact ⟨h.one, fun hl => by cases hl⟩
  case accepted hR hp hs =>
    have e : ∀ (T : Times) (p : Packet) (reply : Option Packet) (shown : Bool), Sys.Answer p reply shown →
        (shownObs p shown ++ wrotes T reply.toList).foldl (unfinishedStep .atLeastOnce) [] = [] := by
      intro T p reply shown ha
      cases ha
      case qos0 p hq => cases hi : p.pkid <;> simp [shownObs, wrotes, unfinishedStep, hq, hi]
      case qos2 hq hid => cases shown <;> simp [shownObs, wrotes, unfinishedStep, hq, hid]
      all_goals simp_all [shownObs, wrotes, unfinishedStep]
    rw [none hR, e _ _ _ _ (Sys.step_answer hs)]
    exact ⟨by simp, fun _ => rfl⟩
  case acceptedFail hR hp he hs =>
    rename_i p _ _ shown _
    rw [none hR]
    refine ⟨?_, fun hl => by cases hl⟩
    have := read_le .atLeastOnce p
    cases shown <;> exact this
  case refusedPacket hR hp hs => rw [none hR]; exact ⟨read_le _ _, fun hl => by cases hl⟩
  case readPanic hR hp hs => rw [none hR]; exact ⟨read_le _ _, fun hl => by cases hl⟩
  case failed => exact ⟨h.one, fun hl => by cases hl⟩
  case crashed => exact ⟨h.one, fun hl => by cases hl⟩
  case outFail => exact ⟨h.one, fun hl => by cases hl⟩
  case outOk hR hs hd =>
    rw [none hR]
    simp only [List.foldl_cons, List.foldl_nil, wrote_none]
    exact ⟨by simp, fun _ => rfl⟩
  case outDisc hR hs hd =>
    rw [none hR]
    simp only [List.foldl_cons, List.foldl_nil, wrote_none]
    exact ⟨by simp [unfinishedStep], fun hl => by cases hl⟩
  case outErr hR hs =>
    rw [none hR]
    simp only [List.foldl_cons, List.foldl_nil, wrote_none]
    exact ⟨by simp [unfinishedStep], fun hl => by cases hl⟩
  case outPanic hR hq hs =>
    rw [none hR]
    simp only [List.foldl_cons, List.foldl_nil, wrote_none]
    exact ⟨by simp [unfinishedStep], fun hl => by cases hl⟩
  case pingReq => exact ⟨h.one, h.live⟩
  case timeout => exact ⟨h.one, fun hl => by cases hl⟩
  case idleTimeout => exact ⟨h.one, fun hl => by cases hl⟩
  case connectFailed hr ha ht ho =>
    rcases ho with rfl | ⟨_, _, _, rfl⟩
    · exact ⟨by simp [unfinishedStep], fun _ => rfl⟩
    · exact ⟨by simp [unfinishedStep], fun _ => rfl⟩
  case refused => exact ⟨by simp [unfinishedStep], fun _ => rfl⟩
  case notConnAck hr ha ht hc => exact ⟨by simp [unfinishedStep], fun _ => rfl⟩
  case connectCrashed => exact ⟨by simp [unfinishedStep], fun _ => rfl⟩
  case established =>
    simp only [List.foldl_append]
    show OneOpen (List.foldl _ (List.foldl _ [] (wrotes _ _)) _) _
    rw [wrotes_none]
    exact ⟨by simp [unfinishedStep], fun _ => rfl⟩
  case establishFail =>
    simp only [List.foldl_append]
    show OneOpen (List.foldl _ (List.foldl _ [] (wrotes _ _)) _) _
    rw [wrotes_none]
    exact ⟨by simp [unfinishedStep], fun _ => rfl⟩
  case establishErr => exact ⟨by simp [unfinishedStep], fun _ => rfl⟩
  case establishPanic => exact ⟨by simp [unfinishedStep], fun _ => rfl⟩

theorem unfinished_le (q : QoS) (o : List Obs) (ids : List UInt16) :
    (o.foldl (unfinishedStep q) ids).length ≤ ids.length + (readIn o).length := by
  induction o generalizing ids with
  | nil => simp
  | cons x o ih =>
    rw [List.foldl_cons]
    refine Nat.le_trans (ih _) ?_
    have e : readIn (x :: o) = readIn [x] ++ readIn o := readIn_append [x] o
    rw [e, List.length_append]
    have : (unfinishedStep q ids x).length ≤ ids.length + (readIn [x]).length := by
      cases x with
      | wrote p a b => exact Nat.le_trans (wrote_le q ids p a b) (Nat.le_add_right _ _)
      | read p =>
        cases p <;> simp only [unfinishedStep, readIn, List.filterMap_cons, List.filterMap_nil, List.length_cons, List.length_nil] <;>
          (try split) <;> (try split) <;> simp
      | _ => simp [unfinishedStep]
    omega

theorem readIn_wrotes (T : Times) (ws : List Packet) : readIn (wrotes T ws) = [] := by
  induction ws with
  | nil => rfl
  | cons p ws ih => exact ih

/-- how much one step reads -/
theorem VStep.reads {fl v o w} (h : VStep fl v o w) :
    (v.live = true ∧ (readIn o).length ≤ 1) ∨ readIn o = [] ∨
      ∃ c a b rest, o = .wrote (.connect c) a b :: rest ∧ (readIn rest).length ≤ 1 := by
  cases h
  case accepted hR hp hs =>
    rename_i p _ reply shown
    refine .inl ⟨hR.live, ?_⟩
    rw [readIn_append, readIn_wrotes]
    cases shown <;> simp [shownObs, readIn]
  case acceptedFail hR hp he hs =>
    rename_i p _ reply shown _
    refine .inl ⟨hR.live, ?_⟩
    cases shown <;> simp [shownObs, readIn]
  case refusedPacket hR hp hs => exact .inl ⟨hR.live, by simp [readIn]⟩
  case readPanic hR hp hs => exact .inl ⟨hR.live, by simp [readIn]⟩
  case readPing hR => exact .inl ⟨hR.live, by simp [readIn]⟩
  case readPingFail hR _ _ => exact .inl ⟨hR.live, by simp [readIn]⟩
  case readDisc hR => exact .inl ⟨hR.live, by simp [readIn]⟩
  case connectFailed ho => rcases ho with rfl | ⟨_, _, _, rfl⟩ <;> exact .inr (.inl (by simp [readIn]))
  case established =>
    refine .inr (.inr ⟨_, _, _, _, rfl, ?_⟩)
    rw [List.append_eq, readIn_append, readIn_append, readIn_wrotes]
    simp [readIn]
  case establishFail =>
    refine .inr (.inr ⟨_, _, _, _, rfl, ?_⟩)
    rw [List.append_eq, readIn_append, readIn_append, readIn_wrotes]
    simp [readIn]
  case refused => exact .inr (.inr ⟨_, _, _, _, rfl, by simp [readIn]⟩)
  case notConnAck => exact .inr (.inr ⟨_, _, _, _, rfl, by simp [readIn]⟩)
  case establishErr => exact .inr (.inr ⟨_, _, _, _, rfl, by simp [readIn]⟩)
  case establishPanic => exact .inr (.inr ⟨_, _, _, _, rfl, by simp [readIn]⟩)
  all_goals exact .inr (.inl (by simp [readIn]))

theorem OneOpen.inside {ids : List UInt16} {fl v o1 o2 w} (h : OneOpen ids v) (hs : VStep fl v (o1 ++ o2) w) :
    (o1.foldl (unfinishedStep .atLeastOnce) ids).length ≤ 1 := by
  rcases hs.reads with ⟨hl, hr⟩ | hr | ⟨c, a, b, rest, e, hr⟩
  · rw [h.live hl]
    rw [readIn_append, List.length_append] at hr
    have := unfinished_le .atLeastOnce o1 []
    simp only [List.length_nil] at this
    omega
  · rw [readIn_append] at hr
    have := unfinished_le .atLeastOnce o1 ids
    rw [(List.append_eq_nil_iff.1 hr).1] at this
    exact Nat.le_trans this h.one
  · cases o1 with
    | nil => exact h.one
    | cons x o1 =>
      simp only [List.cons_append, List.cons.injEq] at e
      obtain ⟨rfl, rfl⟩ := e
      rw [readIn_append, List.length_append] at hr
      rw [List.foldl_cons]
      have := unfinished_le .atLeastOnce o1 []
      simp only [List.length_nil] at this
      show (List.foldl _ [] o1).length ≤ 1
      omega

theorem VRun.oneOpen {fl o t tr v} (h : VRun fl (View.init o t) tr v) : OneOpen (unfinished .atLeastOnce tr) v := by
  refine h.induct (fun tr v => OneOpen (unfinished .atLeastOnce tr) v) ⟨by simp [unfinished], fun _ => rfl⟩ ?_
  intro tr w o w' _ ih hs
  rw [unfinished_append]
  exact ih.step hs

theorem VRun.oneOpen_prefix {fl o t tr v} (h : VRun fl (View.init o t) tr v) {pre : List Obs} (hp : pre <+: tr) :
    (unfinished .atLeastOnce pre).length ≤ 1 := by
  obtain ⟨post, e⟩ := hp
  cases post with
  | nil => rw [List.append_nil] at e; rw [e]; exact h.oneOpen.one
  | cons x post =>
    obtain ⟨v1, v2, tr1, o1, o2, tr2, h1, h2, -, h4, h5⟩ := h.split e.symm
    rw [h4, unfinished_append]
    exact h1.oneOpen.inside h2

end Mqrstt
