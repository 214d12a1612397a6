import Verif.Proof.NetHelp
import Verif.Spec.KeepAlive
/-! # Keep-alive: what the state has to do with the observations -/

namespace Mqrstt
open Mqrstt Mqrstt.Spec

/-! ## the interval in force -/

theorem ka_append (k : Nat) (a b : List Obs) : ka k (a ++ b) = b.foldl kaStep (ka k a) := by simp [ka]

theorem wrotes_ka (T : Times) (ps : List Packet) (s : Ka) : (wrotes T ps).foldl kaStep s = s := by
  induction ps with
  | nil => rfl
  | cons p ps ih => exact ih

theorem kaStep_running {s : Ka} (h : s.running = true) (p : Packet) : kaStep s (.read p) = s := by
  cases p <;> simp [kaStep, h]

theorem shownObs_ka {s : Ka} (h : s.running = true) (p : Packet) (b : Bool) : (shownObs p b).foldl kaStep s = s := by
  cases b <;> simp [shownObs, kaStep_running h] <;> simp [kaStep]

/-- the part of the state that `ka` describes -/
def View.ka (v : View) : Ka := ⟨v.running, v.keepAlive, v.perform⟩

theorem afterConnAck_ka (v : View) (c : ConnAck) (T : Times) (hr : v.running = false) (hc : c.reason = .success) :
    kaStep v.ka (.read (.connAck c)) = (v.afterConnAck c T).ka := by
  simp only [View.afterConnAck, View.ka, kaStep, hr, hc]
  cases c.serverKeepAlive with
  | none => by_cases h0 : v.keepAlive = 0 <;> simp [h0]
  | some k => by_cases h0 : fromSecs k.toNat = 0 <;> simp_all [fromSecs, nanos]

theorem VStep.ka {fl v o w} (h : VStep fl v o w) : w.ka = o.foldl kaStep v.ka := by
  cases h
  case connectFailed ho => rcases ho with rfl | ⟨_, _, _, rfl⟩ <;> rfl
  case accepted hR _ _ =>
    rw [List.foldl_append, shownObs_ka (by simp [View.ka, hR.running]), wrotes_ka]
    rfl
  case acceptedFail hR _ _ _ =>
    rw [List.foldl_append, shownObs_ka (by simp [View.ka, hR.running])]
    rfl
  case refusedPacket hR _ _ =>
    rw [List.foldl_cons, kaStep_running (by simp [View.ka, hR.running])]
    rfl
  case readPanic hR _ _ =>
    rw [List.foldl_cons, kaStep_running (by simp [View.ka, hR.running])]
    rfl
  case noNetwork hr _ _ => simp [kaStep, View.ka, hr]
  case refused hc => simp [kaStep, hc, View.ka]
  case notConnAck hc =>
    rename_i p _ _ _ _ _ _
    cases p <;> first | rfl | exact absurd rfl (hc _)
  case established hr _ _ hc _ _ _ =>
    simp only [List.foldl_append, List.foldl_cons, List.foldl_nil, wrotes_ka]
    exact (afterConnAck_ka v _ ‹Times› hr hc).symm
  case establishFail hr _ _ hc _ _ hnone =>
    simp only [List.foldl_append, List.foldl_cons, List.foldl_nil, wrotes_ka]
    exact (afterConnAck_ka v _ ‹Times› hr hc).symm
  case establishErr hr _ _ hc _ =>
    simp only [List.foldl_cons, List.foldl_nil]
    exact (afterConnAck_ka v _ ‹Times› hr hc).symm
  case establishPanic hr _ _ hc _ =>
    simp only [List.foldl_cons, List.foldl_nil]
    exact (afterConnAck_ka v _ ‹Times› hr hc).symm
  all_goals rfl

theorem VRun.ka {fl o t tr v} (h : VRun fl (View.init o t) tr v) : v.ka = Spec.ka o.keepAlive tr := by
  refine h.induct (fun tr v => v.ka = Spec.ka o.keepAlive tr) rfl ?_
  intro tr w o w' _ ih hs
  rw [ka_append, ← ih]
  exact hs.ka

/-- a client with a connection has keep-alive on only with an interval that is not zero -/
theorem VRun.interval_pos {fl o t tr v} (h : VRun fl (View.init o t) tr v) :
    v.live = true → v.perform = true → v.keepAlive ≠ 0 := by
  refine h.induct (fun _ v => v.live = true → v.perform = true → v.keepAlive ≠ 0) (by simp [View.init]) ?_
  intro tr w o w' _ ih hs
  cases hs
  case established =>
    intro _ hp
    simp only [View.afterConnAck] at hp ⊢
    intro h0
    simp [h0] at hp
  case establishFail =>
    intro _ hp
    simp only [View.afterConnAck] at hp ⊢
    intro h0
    simp [h0] at hp
  case establishErr =>
    intro _ hp
    simp only [View.afterConnAck] at hp ⊢
    intro h0
    simp [h0] at hp
  case establishPanic => simp
  all_goals first | exact ih | simp [View.finish]

/-! ## the clock -/

structure Clock (v : View) : Prop where
  action : v.lastAction ≤ v.now
  await : ∀ t, v.await = some t → t ≤ v.now

theorem Times.le {T : Times} {now : Nat} (h : T.ok now = true) :
    now ≤ T.enter ∧ T.enter ≤ T.fire ∧ T.fire ≤ T.first ∧ T.first ≤ T.second := by
  simp [Times.ok] at h; omega

theorem VStep.clock {fl v o w} (h : VStep fl v o w) (hc : Clock v) : Clock w ∧ v.now ≤ w.now := by
  obtain ⟨h1, h2⟩ := hc
  have ht : ∀ T : Times, v.Ready T → v.now ≤ T.enter ∧ T.enter ≤ T.fire ∧ T.fire ≤ T.first ∧ T.first ≤ T.second :=
    fun T hR => Times.le hR.times
  have ha : ∀ n, v.now ≤ n → ∀ t, v.await = some t → t ≤ n := fun n hn t h => Nat.le_trans (h2 t h) hn
  cases h
  case cancel =>
    refine ⟨⟨h1, ?_⟩, Nat.le_refl _⟩
    intro t
    simp only
    split
    · simp
    · exact h2 t
  case accepted hR _ _ =>
    have := ht _ hR
    refine ⟨⟨?_, ha _ (by simp only; omega)⟩, by simp only; omega⟩
    simp only
    split <;> omega
  case readPing hR =>
    have := ht _ hR
    refine ⟨⟨?_, by simp⟩, by simp only; omega⟩
    simp only
    split <;> omega
  case established hr _ h _ _ _ _ =>
    have := Times.le h
    exact ⟨⟨Nat.le_refl _, ha _ (by simp [View.afterConnAck]; omega)⟩, by simp [View.afterConnAck]; omega⟩
  case establishFail hr _ h _ _ _ hnone =>
    have := Times.le h
    exact ⟨⟨by simp [View.afterConnAck]; omega, ha _ (by simp [View.afterConnAck]; omega)⟩, by simp [View.afterConnAck]; omega⟩
  case establishErr hr _ h _ _ =>
    have := Times.le h
    exact ⟨⟨by simp [View.afterConnAck]; omega, ha _ (by simp [View.afterConnAck]; omega)⟩, by simp [View.afterConnAck]; omega⟩
  case establishPanic hr _ h _ _ =>
    have := Times.le h
    exact ⟨⟨by simp [View.afterConnAck]; omega, ha _ (by simp [View.afterConnAck]; omega)⟩, by simp [View.afterConnAck]; omega⟩
  case pingReq hR _ _ _ =>
    have := ht _ hR
    exact ⟨⟨by simp only; omega, by simp⟩, by simp only; omega⟩
  case connectFailed ht _ =>
    have := Times.le ht
    exact ⟨⟨by simp only; omega, ha _ (by simp only; omega)⟩, by simp only; omega⟩
  case refused ht _ =>
    have := Times.le ht
    exact ⟨⟨by simp only; omega, ha _ (by simp only; omega)⟩, by simp only; omega⟩
  case notConnAck ht _ =>
    have := Times.le ht
    exact ⟨⟨by simp only; omega, ha _ (by simp only; omega)⟩, by simp only; omega⟩
  case connectCrashed ht =>
    have := Times.le ht
    exact ⟨⟨by simp only; omega, ha _ (by simp only; omega)⟩, by simp only; omega⟩
  all_goals first
    | exact ⟨⟨h1, h2⟩, Nat.le_refl _⟩
    | (have := ht _ ‹View.Ready _ _›
       refine ⟨⟨?_, ?_⟩, ?_⟩
       · simp [View.finish]; omega
       · simp [View.finish]; done
       · simp [View.finish]; omega)
    | (have := ht _ ‹View.Ready _ _›
       exact ⟨⟨by simp only; omega, ha _ (by simp only; omega)⟩, by simp only; omega⟩)

theorem VRun.clock {fl o t tr v} (h : VRun fl (View.init o t) tr v) : Clock v := by
  refine h.induct (fun _ v => Clock v) ⟨Nat.le_refl _, by simp [View.init]⟩ ?_
  intro tr w o w' _ ih hs
  exact (hs.clock ih).1

/-! ## the last activity -/

def activity (tr : List Obs) : Activity := tr.foldl actStep ⟨false, 0⟩
theorem activity_append (a b : List Obs) : activity (a ++ b) = b.foldl actStep (activity a) := by simp [activity]

structure Acts (v : View) (a : Activity) : Prop where
  running : a.running = v.running
  last : v.live = true → a.at_ ≤ v.lastAction

theorem wrotes_act_idle (T : Times) (ps : List Packet) {a : Activity} (h : a.running = false) :
    (wrotes T ps).foldl actStep a = a := by
  induction ps with
  | nil => rfl
  | cons p ps ih => simpa [wrotes, actStep, h] using ih

theorem VStep.acts {fl v o w} {a : Activity} (h : VStep fl v o w) (hc : Clock v) (ha : Acts v a) :
    Acts w (o.foldl actStep a) := by
  obtain ⟨h1, h2⟩ := ha
  cases h
  case connectFailed hr _ _ ho =>
    rcases ho with rfl | ⟨_, _, _, rfl⟩
    · exact ⟨h1, h2⟩
    · simp only [List.cons_append, List.nil_append, List.foldl_cons, List.foldl_nil, actStep, h1, hr]
      exact ⟨by simp [h1, hr], by simpa using h2⟩
  case accepted hR hp hs =>
    rename_i T p sys reply shown
    have := Times.le hR.times
    have := hc.action
    have h2 := h2 hR.live
    have h1 := h1.trans hR.running
    cases shown <;> cases reply <;> simp [shownObs, wrotes, actStep, h1] <;>
      refine ⟨by simp [h1, hR.running], fun _ => ?_⟩ <;> simp
    all_goals (try split) <;> omega
  case acceptedFail hR hp he hs =>
    rename_i T p sys reply shown e
    cases shown <;> simp [shownObs, actStep] <;> exact ⟨rfl, by simp [View.finish]⟩
  case noNetwork hr _ hl => exact ⟨hr.symm, by simp [hl]⟩
  case readPing hR =>
    have := Times.le hR.times
    have := hc.action
    have h2 := h2 hR.live
    simp only [List.foldl_cons, List.foldl_nil, actStep]
    refine ⟨h1, fun _ => ?_⟩
    simp only
    split <;> omega
  case outOk hR _ _ =>
    simp [actStep, h1, hR.running]
    exact ⟨by simp [h1, hR.running], by simp⟩
  case pingReq hR _ _ _ =>
    simp [actStep, h1, hR.running]
    exact ⟨by simp [h1, hR.running], by simp⟩
  case refused hr _ _ _ =>
    simp [actStep, h1, hr]
    exact ⟨by simp [h1, hr], by simpa using h2⟩
  case notConnAck hr _ _ _ =>
    simp [actStep, h1, hr]
    exact ⟨by simp [h1, hr], by simpa using h2⟩
  case connectCrashed hr _ _ =>
    simp [actStep, h1, hr]
    exact ⟨by simp [h1, hr], by simp⟩
  case established hr _ _ _ _ _ _ =>
    have h1 := h1.trans hr
    simp only [List.cons_append, List.nil_append, List.foldl_cons, List.foldl_append, actStep, h1]
    rw [wrotes_act_idle _ _ (by simpa using h1)]
    exact ⟨by simp [actStep, h1, hr, View.afterConnAck], by simp [actStep]⟩
  case establishFail hr _ ht _ _ _ hnone =>
    have := Times.le ht
    have := hc.action
    have h1 := h1.trans hr
    simp only [List.cons_append, List.nil_append, List.foldl_cons, List.foldl_append, actStep, h1]
    rw [wrotes_act_idle _ _ (by simpa using h1)]
    refine ⟨by simp [actStep, h1, hr, View.afterConnAck], ?_⟩
    intro hl
    have := h2 hl
    simp [actStep, View.afterConnAck]
    omega
  case establishErr hr _ ht _ _ =>
    have := Times.le ht
    have := hc.action
    have h1 := h1.trans hr
    simp only [List.foldl_cons, List.foldl_nil, actStep, h1]
    refine ⟨by simp [h1, hr, View.afterConnAck], ?_⟩
    intro hl
    have := h2 hl
    simp [View.afterConnAck]
    omega
  case establishPanic hr _ ht _ _ =>
    have h1 := h1.trans hr
    simp only [List.foldl_cons, List.foldl_nil, actStep, h1]
    exact ⟨by simp [h1, hr, View.afterConnAck], by simp⟩
  all_goals first
    | exact ⟨h1, h2⟩
    | exact ⟨rfl, h2⟩
    | exact ⟨rfl, by simp [View.finish]⟩
    | (simp [actStep]; exact ⟨h1, by simp⟩)
    | (simp [actStep]; exact ⟨rfl, by simp [View.finish]⟩)

theorem VRun.acts {fl o t tr v} (h : VRun fl (View.init o t) tr v) : Acts v (activity tr) := by
  refine h.induct (fun tr v => Acts v (activity tr)) ⟨rfl, by simp [View.init]⟩ ?_
  intro tr w o w' hr ih hs
  rw [activity_append]
  exact hs.acts hr.clock ih

/-! ## unanswered pings -/

theorem unanswered_append (a b : List Obs) : unanswered (a ++ b) = b.foldl pingStep (unanswered a) := by
  simp [unanswered]

theorem wrotes_ping {T : Times} {ps : List Packet} (h : ∀ p ∈ ps, p ≠ .pingReq) (b : Bool) :
    (wrotes T ps).foldl pingStep b = b := by
  induction ps with
  | nil => rfl
  | cons p ps ih =>
    have : pingStep b (.wrote p T.fire T.first) = b := by
      have := h p (by simp)
      cases p <;> first | rfl | simp at this
    simp only [wrotes, List.map_cons, List.foldl_cons, this]
    exact ih fun q hq => h q (by simp [hq])

theorem fromUser_pingStep {p : Packet} (h : p.fromUser) (a b : Nat) (w : Bool) : pingStep w (.wrote p a b) = w := by
  cases p <;> first | rfl | simp [Packet.fromUser] at h

theorem user_pingStep (e : Event) (w : Bool) : pingStep w (.user e) = w := by cases e <;> rfl

theorem read_pingStep {p : Packet} (h : p ≠ .pingResp) (w : Bool) : pingStep w (.read p) = w := by
  cases p <;> first | rfl | simp at h

theorem shownObs_ping {p : Packet} (hp : p.forSession = true) (b w : Bool) : (shownObs p b).foldl pingStep w = w := by
  have : p ≠ .pingResp := by rintro rfl; simp [Packet.forSession] at hp
  cases b <;> simp [shownObs, read_pingStep this] <;> simp [pingStep]

structure Waits (v : View) (u : Bool) : Prop where
  await : v.await = none → u = false
  idle : v.running = false → u = false

theorem VStep.waits {fl v o w} {u : Bool} (hu : v.sys.Users) (h : VStep fl v o w) (hw : Waits v u) :
    Waits w (o.foldl pingStep u) := by
  obtain ⟨h1, h2⟩ := hw
  cases h
  case client => rw [List.foldl_cons, user_pingStep]; exact ⟨h1, h2⟩
  case drop => rw [List.foldl_cons, user_pingStep]; exact ⟨h1, h2⟩
  case connectFailed ho => rcases ho with rfl | ⟨_, _, _, rfl⟩ <;> exact ⟨h1, h2⟩
  case accepted hR hp hs =>
    rename_i T p sys reply shown
    rw [List.foldl_append, shownObs_ping hp]
    have : (wrotes T reply.toList).foldl pingStep u = u := by
      apply wrotes_ping
      intro q hq
      have := Sys.step_answer hs
      rintro rfl
      cases this <;> simp at hq
    rw [this]
    exact ⟨h1, h2⟩
  case acceptedFail hR hp he hs =>
    rename_i T p sys reply shown e
    rw [List.foldl_append, shownObs_ping hp]
    exact ⟨fun _ => rfl, fun _ => rfl⟩
  case outOk hR hs hd =>
    simp only [List.foldl_cons, List.foldl_nil, fromUser_pingStep (written_fromUser hu hs (.inl rfl))]
    exact ⟨h1, h2⟩
  case pingReq hR _ _ _ => exact ⟨by simp, by simp [hR.running]⟩
  case notConnAck hr _ _ _ =>
    have := h2 hr
    subst this
    refine ⟨fun _ => ?_, fun _ => ?_⟩ <;> cases ‹Packet› <;> rfl
  case established hr _ _ _ hs hw _ =>
    simp only [List.foldl_append, List.foldl_cons, List.foldl_nil]
    rw [wrotes_ping]
    · exact ⟨h1, h2⟩
    · intro p hp
      have := Sys.step_connected_resent hs p (hw.subset hp)
      rintro rfl
      simp [Packet.resent] at this
  case establishFail hr _ _ _ hs hw hnone =>
    simp only [List.foldl_append, List.foldl_cons, List.foldl_nil]
    rw [wrotes_ping]
    · exact ⟨h1, h2⟩
    · intro p hp
      have := Sys.step_connected_resent hs p (hw.subset hp)
      rintro rfl
      simp [Packet.resent] at this
  all_goals first
    | exact ⟨h1, h2⟩
    | exact ⟨fun _ => rfl, fun _ => rfl⟩

theorem VRun.waits {fl o t tr v} (h : VRun fl (View.init o t) tr v) : Waits v (unanswered tr) := by
  refine h.induct (fun tr v => Waits v (unanswered tr)) ⟨fun _ => rfl, fun _ => rfl⟩ ?_
  intro tr w o w' hr ih hs
  rw [unanswered_append]
  exact hs.waits hr.users ih

/-! ## waiting for PINGRESP -/

/-- the PINGREQ that is being waited for -/
def PingAt (tr : List Obs) (t : Nat) : Prop :=
  ∃ p1 p2 a b, tr = p1 ++ .wrote .pingReq a b :: p2 ∧ (∀ x ∈ p2, endsWait x = false) ∧ b ≤ t

theorem PingAt.append {tr : List Obs} {t : Nat} (h : PingAt tr t) {o : List Obs} (ho : ∀ x ∈ o, endsWait x = false) :
    PingAt (tr ++ o) t := by
  obtain ⟨p1, p2, a, b, rfl, h2, h3⟩ := h
  refine ⟨p1, p2 ++ o, a, b, by simp, ?_, h3⟩
  intro x hx
  rcases List.mem_append.1 hx with hx | hx
  · exact h2 x hx
  · exact ho x hx

def Waiting (tr : List Obs) (v : View) : Prop := ∀ t, v.await = some t → v.running = true ∧ PingAt tr t

theorem endsWait_shown {p : Packet} (hp : p.forSession = true) (b : Bool) : ∀ x ∈ shownObs p b, endsWait x = false := by
  have : p ≠ .pingResp := by rintro rfl; simp [Packet.forSession] at hp
  intro x hx
  cases b <;> simp [shownObs] at hx
  · subst hx; cases p <;> first | rfl | simp at this
  · rcases hx with rfl | rfl
    · cases p <;> first | rfl | simp at this
    · rfl

theorem VStep.waiting {fl v o w tr} (h : VStep fl v o w) (hf : fl = .tokio ∨ .cancelled ∉ o) (hw : Waiting tr v) :
    Waiting (tr ++ o) w := by
  have idle : v.running = false → v.await = none := by
    intro hr
    cases ha : v.await with
    | none => rfl
    | some t => have := (hw t ha).1; rw [hr] at this; cases this
  intro t ht
  cases h
  case client => exact ⟨(hw t ht).1, (hw t ht).2.append (by simp [endsWait])⟩
  case drop hr _ => have := (idle hr).symm.trans ht; cases this
  case noNetwork hr _ _ => have := (idle hr).symm.trans ht; cases this
  case start hr _ _ => have := (idle hr).symm.trans ht; cases this
  case connectFailed hr _ _ _ => have := (idle hr).symm.trans ht; cases this
  case refused hr _ _ _ => have := (idle hr).symm.trans ht; cases this
  case notConnAck hr _ _ _ => have := (idle hr).symm.trans ht; cases this
  case connectCrashed hr _ _ => have := (idle hr).symm.trans ht; cases this
  case established hr _ _ _ _ _ _ => have := (idle hr).symm.trans ht; cases this
  case establishFail hr _ _ _ _ _ hnone => have := (idle hr).symm.trans ht; cases this
  case establishErr hr _ _ _ _ => have := (idle hr).symm.trans ht; cases this
  case establishPanic hr _ _ _ _ => have := (idle hr).symm.trans ht; cases this
  case cancel =>
    rcases hf with rfl | hf
    · simp at ht
    · simp at hf
  case quiet => simpa using hw t ht
  case wait => simpa using hw t ht
  case readPing => simp at ht
  case accepted hR hp hs =>
    refine ⟨(hw t ht).1, (hw t ht).2.append ?_⟩
    intro x hx
    rcases List.mem_append.1 hx with hx | hx
    · exact endsWait_shown hp _ x hx
    · simp [wrotes] at hx
      obtain ⟨q, -, rfl⟩ := hx
      rfl
  case outOk => exact ⟨(hw t ht).1, (hw t ht).2.append (by simp [endsWait])⟩
  case pingReq hR _ _ _ =>
    simp at ht
    subst ht
    have := Times.le hR.times
    exact ⟨hR.running, tr, [], _, _, rfl, by simp, by omega⟩
  all_goals simp [View.finish] at ht

theorem VRun.waiting {fl o t tr v} (h : VRun fl (View.init o t) tr v) :
    (fl = .tokio ∨ .cancelled ∉ tr) → Waiting tr v := by
  refine h.induct (fun tr v => (fl = .tokio ∨ .cancelled ∉ tr) → Waiting tr v) (by simp [Waiting, View.init]) ?_
  intro tr w o w' hr ih hs hf
  exact hs.waiting (hf.imp_right fun h hc => h (by simp [hc])) (ih (hf.imp_right fun h hc => h (by simp [hc])))

/-- a step of the clients leaves the network alone -/
theorem Sys.client_alive {s s' : Sys} {op : Op} {e : Event} (hc : op.ofClient = true) (h : s.step op = some (s', e))
    (ha : s.alive = true) : s'.alive = true := by
  have := Sys.step_ofClient hc h
  exact Sys.step_stays_alive h ha (by rintro rfl; simp [Event.ofClient] at this) (by rintro rfl; simp [Event.ofClient] at this)

/-! ## silence -/

/-- nothing was written (smol: nor read) since the time `n` -/
structure Since (v : View) (n : Nat) : Prop where
  action : v.lastAction ≤ n
  await : ∀ t, v.await = some t → t ≤ n

theorem VStep.since {fl v o w n} (h : VStep fl v o w) (hw : ∀ x ∈ o, isWrote x = false)
    (hf : fl = .tokio ∨ ∀ x ∈ o, isRead x = false) (hn : Since v n) : Since w n := by
  obtain ⟨h1, h2⟩ := hn
  cases h
  case cancel => refine ⟨h1, ?_⟩; intro t; simp only; split; simp; exact h2 t
  case readPing =>
    rcases hf with rfl | hf
    · exact ⟨h1, by simp⟩
    · simp [isRead] at hf
  case accepted hR hp hs =>
    rename_i T p sys reply shown
    cases reply with
    | some r => have := hw (.wrote r T.fire T.first) (by simp [wrotes]); simp [isWrote] at this
    | none =>
      rcases hf with rfl | hf
      · exact ⟨by simpa using h1, h2⟩
      · have := hf (.read p) (by cases shown <;> simp [shownObs]); simp [isRead] at this
  all_goals first
    | exact ⟨h1, h2⟩
    | exact ⟨h1, by simp [View.finish]⟩
    | (simp [isWrote] at hw; done)
    | exact absurd (hw _ (List.mem_append_left _ (List.mem_cons_self ..))) (by simp [isWrote])

theorem VRun.since {fl v tr w n} (h : VRun fl v tr w) (hn : Since v n) :
    (∀ x ∈ tr, isWrote x = false) → (fl = .tokio ∨ ∀ x ∈ tr, isRead x = false) → Since w n := by
  refine h.induct (fun tr w => (∀ x ∈ tr, isWrote x = false) → (fl = .tokio ∨ ∀ x ∈ tr, isRead x = false) → Since w n)
    (fun _ _ => hn) ?_
  intro tr w o w' _ ih hs hw hf
  exact hs.since (fun x hx => hw x (by simp [hx])) (hf.imp_right fun h x hx => h x (by simp [hx]))
    (ih (fun x hx => hw x (by simp [hx])) (hf.imp_right fun h x hx => h x (by simp [hx])))

theorem VRun.running {fl o t tr v} (h : VRun fl (View.init o t) tr v) :
    v.running = true → v.live = true ∧ v.sys.alive = true := by
  refine h.induct (fun _ v => v.running = true → v.live = true ∧ v.sys.alive = true) (by simp [View.init]) ?_
  intro tr w o w' _ ih hs
  cases hs
  case client hc hs => exact fun hr => ⟨(ih hr).1, Sys.client_alive hc hs (ih hr).2⟩
  case start ha hl => exact fun _ => ⟨hl, ha⟩
  case accepted hR _ hs => exact fun _ => ⟨hR.live, Sys.step_stays_alive hs hR.alive (by simp) (by simp)⟩
  case outOk hR hs _ => exact fun _ => ⟨hR.live, Sys.step_stays_alive hs hR.alive (by simp) (by simp)⟩
  case established hr _ _ _ _ _ _ => simp [View.afterConnAck, hr]
  case establishFail hr _ _ _ _ _ hnone => simp [View.afterConnAck, hr]
  case establishErr hr _ _ _ _ => simp [View.afterConnAck, hr]
  case establishPanic hr _ _ _ _ => simp [View.afterConnAck, hr]
  all_goals first
    | exact ih
    | exact fun hr => absurd hr (by simp_all [View.finish])

/-! ## pings and timeouts -/

theorem _root_.Mqrstt.Spec.IsTraceOf.vrun {k : Nat} {tr : List Obs} (h : IsTraceOf k tr) :
    ∃ fl o t v, VRun fl (View.init o t) tr v ∧ o.keepAlive = k := by
  cases h with
  | tokio o t ops h hk => exact ⟨_, o, t, _, by subst h; exact Tokio.vrun o t ops, hk⟩
  | smol checks o t ops h hk => exact ⟨_, o, t, _, by subst h; exact Smol.vrun checks o t ops, hk⟩

theorem pingReq_step {fl v1 v2 o1 o2 a b} (hu : v1.sys.Users) (h : VStep fl v1 (o1 ++ .wrote .pingReq a b :: o2) v2) :
    o1 = [] ∧ v1.running = true ∧ v1.live = true ∧ v1.await = none ∧ v1.perform = true ∧ v1.lastAction + v1.keepAlive ≤ a := by
  have key : AllPos (fun o1 x _ => ∀ a b, x = .wrote .pingReq a b → o1 = [] ∧ v1.running = true ∧ v1.live = true ∧
      v1.await = none ∧ v1.perform = true ∧ v1.lastAction + v1.keepAlive ≤ a) (o1 ++ .wrote .pingReq a b :: o2) := by
    generalize o1 ++ Obs.wrote .pingReq a b :: o2 = ob at h
    have noUser : ∀ {p : Packet}, p.fromUser → p ≠ .pingReq := by
      rintro p hp rfl; simp [Packet.fromUser] at hp
    have noResent : ∀ {p : Packet}, p.resent → p ≠ .pingReq := by
      rintro p hp rfl; simp [Packet.resent] at hp
    cases h
    case pingReq hR hw hp hd => simp; exact ⟨hR.running, hR.live, hw, hp, hd⟩
    case accepted hR hp hs =>
      rename_i T p sys reply shown
      have := Sys.step_answer hs
      cases this <;> (try cases shown) <;> simp [shownObs, wrotes]
    case acceptedFail hR hp he hs => rename_i T p sys reply shown e; cases shown <;> simp [shownObs]
    case connectFailed ho => rcases ho with rfl | ⟨_, _, _, rfl⟩ <;> simp
    case established hs hw _ =>
      simp
      refine allPos_wrotes ?_ (by simp)
      intro p hp o1 o2 a b e
      cases e
      exact absurd rfl (noResent (Sys.step_connected_resent hs _ (hw.subset hp)))
    case establishFail hs hw hnone =>
      simp
      refine allPos_wrotes ?_ (by simp)
      intro p hp o1 o2 a b e
      cases e
      exact absurd rfl (noResent (Sys.step_connected_resent hs _ (hw.subset hp)))
    case outOk hs _ => have := noUser (written_fromUser hu hs (.inl rfl)); simp [this]
    case outDisc hs _ => have := noUser (written_fromUser hu hs (.inl rfl)); simp [this]
    case outErr hs => have := noUser (written_fromUser hu hs (.inr ⟨_, rfl⟩)); simp [this]
    case outPanic hq hs => have := noUser (hu _ (.inr (by rw [hq]; exact List.mem_cons_self ..))); simp [this]
    all_goals simp [keepAliveDisconnect]
  exact key _ _ _ rfl _ _ rfl

theorem timeout_step {fl v1 v2 o1 o2} (h : VStep fl v1 (o1 ++ .ended (.status .keepAliveTimeout) :: o2) v2) :
    ∃ c d, o1 = [.wrote keepAliveDisconnect c d] ∧ v1.running = true ∧
      ((∃ t, v1.await = some t ∧ t + v1.keepAlive ≤ c) ∨ (fl = .smol ∧ v1.perform = false)) := by
  have key : AllPos (fun o1 x _ => x = .ended (.status .keepAliveTimeout) → ∃ c d, o1 = [.wrote keepAliveDisconnect c d] ∧
      v1.running = true ∧ ((∃ t, v1.await = some t ∧ t + v1.keepAlive ≤ c) ∨ (fl = .smol ∧ v1.perform = false)))
      (o1 ++ .ended (.status .keepAliveTimeout) :: o2) := by
    generalize o1 ++ Obs.ended (.status .keepAliveTimeout) :: o2 = ob at h
    cases h
    case timeout hR hw hd => simp; exact ⟨hR.running, .inl ⟨_, hw, hd⟩⟩
    case idleTimeout hR hf hp hd => simp; exact ⟨hR.running, .inr ⟨hf, hp⟩⟩
    case accepted hR hp hs =>
      rename_i T p sys reply shown
      cases shown <;> cases reply <;> simp [shownObs, wrotes]
    case acceptedFail hR hp he hs => rename_i T p sys reply shown e; cases shown <;> simp [shownObs]
    case connectFailed ho => rcases ho with rfl | ⟨_, _, _, rfl⟩ <;> simp
    case established hs hw _ => simp; exact allPos_wrotes (by simp) (by simp)
    case establishFail hs hw hnone => simp; exact allPos_wrotes (by simp) (by simp)
    all_goals simp
  exact key _ _ _ rfl rfl

theorem timeout_justified {fl o t tr v} (h : VRun fl (View.init o t) tr v) {pre post : List Obs}
    (e : tr = pre ++ .ended (.status .keepAliveTimeout) :: post)
    (hf : fl = .tokio ∨ (.cancelled ∉ pre ∧ (ka o.keepAlive pre).on = true)) : TimeoutJustified o.keepAlive pre := by
  obtain ⟨v1, v2, tr1, o1, o2, tr2, h1, h2, -, rfl, -⟩ := h.split e
  obtain ⟨c, d, rfl, hr, ht⟩ := timeout_step h2
  have hka : ka o.keepAlive (tr1 ++ [.wrote keepAliveDisconnect c d]) = v1.ka := by
    rw [ka_append, ← h1.ka]; rfl
  rcases ht with ⟨t, ht, hd⟩ | ⟨rfl, hp⟩
  · have := h1.waiting (hf.imp_right fun h hc => h.1 (by simp [hc]))
    obtain ⟨-, p1, p2, a, b, rfl, h3, h4⟩ := this t ht
    refine ⟨p1, p2, a, b, c, d, by simp, h3, ?_⟩
    rw [hka]
    simp only [View.ka]
    omega
  · rcases hf with hf | ⟨-, hf⟩
    · cases hf
    · rw [hka] at hf; simp [View.ka, hp] at hf

theorem pingStep_keeps {x : Obs} (h : endsWait x = false) : pingStep true x = true := by
  cases x with
  | wrote p a b => cases p <;> rfl
  | read p => cases p <;> first | rfl | simp [endsWait] at h
  | _ => first | rfl | simp [endsWait] at h

theorem pingSteps_keep {l : List Obs} (h : ∀ x ∈ l, endsWait x = false) : l.foldl pingStep true = true := by
  induction l with
  | nil => rfl
  | cons x l ih =>
    rw [List.foldl_cons, pingStep_keeps (h x (by simp))]
    exact ih fun y hy => h y (by simp [hy])

theorem justified_unanswered {k : Nat} {pre : List Obs} (h : TimeoutJustified k pre) : unanswered pre = true := by
  obtain ⟨p1, p2, a, b, c, d, rfl, h2, -⟩ := h
  rw [unanswered_append, List.foldl_cons, List.foldl_append]
  simp only [pingStep, pingSteps_keep h2]
  rfl

/-! ## the timer's turn -/

theorem Tokio.timer_due {s : Tokio} {n : Nat} {T : Times} (hr : s.run.isSome = true) (hl : s.network.isSome = true)
    (ha : s.sys.alive = true) (hp : s.perform = true) (hT : T.ok s.now = true) (hs : Since s.view n)
    (hdue : n + s.options.keepAlive ≤ T.enter) :
    ∃ s', s.step (.turn .timer 0 true T) = some (s', [.wrote .pingReq T.fire T.first]) ∨
      s.step (.turn .timer 0 true T) =
        some (s', [.wrote keepAliveDisconnect T.fire T.first, .ended (.status .keepAliveTimeout)]) := by
  obtain ⟨await, hr⟩ := Option.isSome_iff_exists.1 hr
  obtain ⟨c, hc⟩ := Option.isSome_iff_exists.1 hl
  have hle := Times.le hT
  have hlose : canLose c 0 = true := by
    simp only [canLose, List.take_zero, Nat.zero_le, decide_true, Bool.true_and]
    rfl
  have hw1 : writePacket .pingReq true = .ok () := rfl
  have hw2 : writePacket keepAliveDisconnect true = .ok () := rfl
  have hact : s.lastAction ≤ n := hs.action
  have hover : ∀ s2 : Tokio, s2.options = s.options → s2.lastAction = s.lastAction → s2.sleepOver await T = true := by
    intro s2 e1 e2
    unfold sleepOver deadline
    cases await with
    | none => simp only [e1, e2, decide_eq_true_eq]; omega
    | some t =>
      have ht : t ≤ n := hs.await t (by simp [Tokio.view, hr])
      simp only [e1, decide_eq_true_eq]; omega
  simp only [step, turn, hr, hc, hT, ha, Bool.and_self, if_true, hlose, onTimer]
  rw [if_pos]
  rotate_left
  · exact hover _ rfl rfl
  cases await with
  | none =>
    simp only [hp, if_true, hw1]
    exact ⟨_, .inl rfl⟩
  | some t =>
    simp only [hw2]
    exact ⟨_, .inr rfl⟩

theorem Smol.timer_due {s : Smol} {n : Nat} {T : Times} (hr : s.running = true) (hl : s.network.isSome = true)
    (ha : s.sys.alive = true) (hp : s.perform = true) (hT : T.ok s.now = true) (hs : Since s.view n)
    (hdue : n + s.keepAlive ≤ T.enter) :
    ∃ s', s.step (.turn .timer true T) = some (s', [.wrote .pingReq T.fire T.first]) ∨
      s.step (.turn .timer true T) =
        some (s', [.wrote keepAliveDisconnect T.fire T.first, .ended (.status .keepAliveTimeout)]) := by
  obtain ⟨c, hc⟩ := Option.isSome_iff_exists.1 hl
  have hle := Times.le hT
  have hw1 : writePacket .pingReq true = .ok () := rfl
  have hw2 : writePacket keepAliveDisconnect true = .ok () := rfl
  have hact : s.lastAction ≤ n := hs.action
  simp only [step, turn, hr, hc, hT, ha, Bool.and_self, if_true, onTimer]
  have hover : ∀ s2 : Smol, s2.perform = true → s2.await = s.await → s2.lastAction = s.lastAction →
      s2.keepAlive = s.keepAlive → s2.sleepOver T = true := by
    intro s2 e1 e2 e3 e4
    unfold sleepOver sleep
    simp only [e1, e2, e3, e4, decide_eq_true_eq, Bool.true_eq_false, if_false]
    cases hw : s.await with
    | none => simp only; omega
    | some t => have := hs.await t hw; simp only; omega
  rw [if_pos]
  rotate_left
  · exact hover _ hp rfl rfl rfl
  cases hw : s.await with
  | none => simp [hp, hw1]
  | some t => simp [hw2, finish]

theorem Smol.timer_early {s : Smol} {io : Bool} {T : Times} (hp : s.perform = true) (hw : s.await = none)
    (h : T.fire < s.lastAction + s.keepAlive) : s.step (.turn .timer io T) = none := by
  have hover : ∀ s2 : Smol, s2.perform = true → s2.await = none → s2.lastAction = s.lastAction →
      s2.keepAlive = s.keepAlive → s2.sleepOver T = false := by
    intro s2 e1 e2 e3 e4
    unfold sleepOver sleep
    simp only [e1, e2, e3, e4, decide_eq_false_iff_not, Bool.true_eq_false, if_false]
    omega
  simp only [step, turn, onTimer]
  split
  · split
    · rw [if_neg]
      refine Bool.eq_false_iff.1 (hover _ ?_ ?_ ?_ ?_)
      · exact hp
      · exact hw
      · rfl
      · rfl
    · rfl
  · rfl

theorem Smol.timer_off {s : Smol} {io : Bool} {T : Times} (hp : s.perform = false)
    (h : T.fire < fromSecs 3600) : s.step (.turn .timer io T) = none := by
  have hover : ∀ s2 : Smol, s2.perform = false → s2.sleepOver T = false := by
    intro s2 e1
    unfold sleepOver sleep
    simp only [e1, decide_eq_false_iff_not, if_true]
    omega
  simp only [step, turn, onTimer]
  split
  · split
    · rw [if_neg]
      refine Bool.eq_false_iff.1 (hover _ ?_)
      exact hp
    · rfl
  · rfl

theorem Tokio.timer_off {s : Tokio} {lost : Nat} {io : Bool} {T : Times} (hp : s.perform = false) (hr : s.run = some none) :
    s.step (.turn .timer lost io T) = none := by
  simp only [step, turn, onTimer, hr]
  split
  · rename_i h _
    cases h
    split
    · split
      · split
        · simp [hp]
        · rfl
      · rfl
    · rfl
  · rfl

/-! ## the interval after several answers -/

/-- the answers so far never mentioned a keep-alive: the configured interval is in force -/
theorem ka_interval_none (k : Nat) (tr : List Obs) (h : ∀ c, .read (.connAck c) ∈ tr → c.serverKeepAlive = none) :
    (ka k tr).interval = k := by
  have : ∀ s : Ka, s.interval = k → (tr.foldl kaStep s).interval = k := by
    induction tr with
    | nil => exact fun s h => h
    | cons x tr ih =>
      intro s hs
      apply ih (fun c hc => h c (List.mem_cons_of_mem _ hc))
      cases x with
      | read p =>
        cases p with
        | connAck c =>
          simp only [kaStep]
          split
          · exact hs
          · simp [h c (List.mem_cons_self ..), hs]
        | _ => exact hs
      | _ => exact hs
  exact this _ rfl

/-- no answer so far asked for a keep-alive of zero, and a configured zero was not used: it is on -/
theorem ka_on (k : Nat) (tr : List Obs) (hk : k ≠ 0) (h : ∀ c, .read (.connAck c) ∈ tr → c.serverKeepAlive ≠ some 0) :
    (ka k tr).on = true ∧ (ka k tr).interval ≠ 0 := by
  have : ∀ s : Ka, s.on = true ∧ s.interval ≠ 0 → (tr.foldl kaStep s).on = true ∧ (tr.foldl kaStep s).interval ≠ 0 := by
    induction tr with
    | nil => exact fun s h => h
    | cons x tr ih =>
      intro s hs
      apply ih (fun c hc => h c (List.mem_cons_of_mem _ hc))
      cases x with
      | read p =>
        cases p with
        | connAck c =>
          simp only [kaStep]
          split
          · exact hs
          · have := h c (List.mem_cons_self ..)
            cases hc : c.serverKeepAlive with
            | none => simp [hs]
            | some n =>
              have hn : n.toNat ≠ 0 := by
                intro h0
                exact this (by rw [hc]; congr 1; exact UInt16.toNat_inj.1 h0)
              simp [hs]
              omega
        | _ => exact hs
      | _ => exact hs
  exact this _ ⟨rfl, hk⟩

theorem ka_on_first (k : Nat) (tr : List Obs) (h : ∀ c, .read (.connAck c) ∉ tr) : (ka k tr).on = true := by
  have : ∀ s : Ka, s.on = true → (tr.foldl kaStep s).on = true := by
    induction tr with
    | nil => exact fun s h => h
    | cons x tr ih =>
      intro s hs
      apply ih (fun c hc => h c (List.mem_cons_of_mem _ hc))
      cases x with
      | read p =>
        cases p with
        | connAck c => exact absurd (List.mem_cons_self ..) (h c)
        | _ => exact hs
      | _ => exact hs
  exact this _ rfl

/-- a successful connect and the answer that was read -/
theorem connected_step {fl v1 v2 o1 o2 c t} (h : VStep fl v1 (o1 ++ .connected c t :: o2) v2) :
    v1.running = false ∧ c.reason = .success ∧ ∃ cn a b ws T, o1 = [.wrote (.connect cn) a b, .read (.connAck c),
      .delivered (.connAck c)] ++ wrotes T ws := by
  have key : AllPos (fun o1 x _ => ∀ c t, x = .connected c t → v1.running = false ∧ c.reason = .success ∧
      ∃ cn a b ws T, o1 = [.wrote (.connect cn) a b, .read (.connAck c), .delivered (.connAck c)] ++ wrotes T ws)
      (o1 ++ .connected c t :: o2) := by
    generalize o1 ++ Obs.connected c t :: o2 = ob at h
    cases h
    case accepted hR hp hs =>
      rename_i T p sys reply shown
      cases shown <;> cases reply <;> simp [shownObs, wrotes]
    case acceptedFail hR hp he hs => rename_i T p sys reply shown e; cases shown <;> simp [shownObs]
    case connectFailed ho => rcases ho with rfl | ⟨_, _, _, rfl⟩ <;> simp
    case established hr _ _ hc hs hw _ =>
      simp only [List.cons_append, List.nil_append, allPos_cons]
      refine ⟨by simp, by simp, by simp, ?_⟩
      refine allPos_wrotes (by simp) ?_
      simp only [allPos_cons, allPos_nil, and_true]
      intro c' t' e
      cases e
      exact ⟨hr, hc, _, _, _, _, _, by simp; exact ⟨⟨rfl, rfl, rfl⟩, rfl⟩⟩
    case establishFail hs hw hnone => simp; exact allPos_wrotes (by simp) (by simp)
    all_goals simp
  exact key _ _ _ rfl _ _ rfl

end Mqrstt
