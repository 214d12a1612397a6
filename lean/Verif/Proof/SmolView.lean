import Verif.Proof.View
/-! # The smol network makes the steps of `VStep` -/

namespace Mqrstt

namespace Smol

def view (s : Smol) : View :=
  ⟨s.sys, s.keepAlive, s.perform, s.lastAction, s.await, s.network.isSome, s.running, s.now⟩

/-- between two steps nothing is left to write, and `run` only runs with a connection -/
structure Good (s : Smol) : Prop where
  outgoing : s.outgoing = []
  network : s.running = true → s.network.isSome = true

theorem some_inj {s s' : Smol} {o o' : List Obs} (h : some (s, o) = some (s', o')) : s = s' ∧ o = o' := by
  simpa using h

theorem writePacket_error {p : Packet} {io : Bool} {e : ConnErr} (h : writePacket p io = .error e) : e.ofPacket := by
  unfold writePacket at h
  repeat' split at h
  all_goals first | (simp at h; done) | (cases h; simp [ConnErr.ofPacket])

theorem writeAll_error {ps : List Packet} {io : Bool} {e : ConnErr} (h : writeAll ps io = .error e) : e.ofPacket := by
  induction ps with
  | nil =>
    unfold writeAll at h
    split at h
    · simp at h
    · cases h; simp [ConnErr.ofPacket]
  | cons p ps ih =>
    unfold writeAll at h
    split at h
    · cases h; simp [ConnErr.ofPacket]
    · exact ih h

/-- the end of a run -/
theorem of_finish {v : View} {t s' : Smol} {l o : List Obs} {e : End}
    (h : some (t.finish l e) = some (s', o)) (hv : VStep .smol v (l ++ [.ended e]) t.view.finish) :
    VStep .smol v o s'.view ∧ s'.Good := by
  have := some_inj h
  obtain ⟨rfl, rfl⟩ := this
  exact ⟨hv, rfl, by simp⟩

theorem onPacket_vstep {s s' : Smol} {c : Bytes} {p : Packet} {io : Bool} {T : Times} {o : List Obs}
    {v : View} (hn : s.network = some c) (hr : s.running = true) (ho : s.outgoing = [])
    (hv : { v with now := T.second } = s.view)
    (hR : v.Ready T) (h : s.onPacket p io T = some (s', o)) : VStep .smol v o s'.view ∧ s'.Good := by
  have hsys : s.sys = v.sys := by rw [show v.sys = { v with now := T.second }.sys from rfl, hv]; rfl
  unfold onPacket at h
  split at h
  · simp only [flushOutgoing] at h
    split at h
    · obtain ⟨rfl, rfl⟩ := some_inj h
      refine ⟨VStep.cast (VStep.readPing hR) (by simp [ho]) ?_, rfl, by simp [hn]⟩
      simp only [view, View.mk.injEq] at hv ⊢
      simp_all
    · refine of_finish h (VStep.cast (VStep.readPingFail hR rfl (writeAll_error ‹_›)) rfl ?_)
      simp only [view, View.finish, View.mk.injEq] at hv ⊢
      simp_all
  · refine of_finish h ?_
    rw [← hv]
    exact .readDisc hR
  · rename_i h1 h2
    have hp : p.forSession = true := by
      cases p <;> first | rfl | (exact absurd rfl h1) | (exact absurd rfl (h2 _))
    cases hs : s.sys.step (.receive p) with
    | none => rw [hs] at h; simp at h
    | some x =>
      obtain ⟨sys, e⟩ := x
      rw [hs] at h
      rw [hsys] at hs
      rcases Sys.step_receive_event hs with ⟨reply, shown, rfl⟩ | ⟨er, rfl⟩ | rfl
      · simp only [flushOutgoing, ho, List.nil_append] at h
        split at h
        · obtain ⟨rfl, rfl⟩ := some_inj h
          refine ⟨VStep.cast (VStep.accepted hR hp hs) (by simp [shownObs, wrotes]) ?_, rfl, by simp [hn]⟩
          simp only [view, View.mk.injEq] at hv ⊢
          simp_all
        · rename_i e _
          refine of_finish h (VStep.cast (VStep.acceptedFail (e := e) hR hp (writeAll_error ‹_›) hs) rfl ?_)
          simp only [view, View.finish, View.mk.injEq] at hv ⊢
          simp_all
      · refine of_finish h (VStep.cast (VStep.refusedPacket hR hp hs) rfl ?_)
        simp only [view, View.finish, View.mk.injEq] at hv ⊢
        simp_all
      · refine of_finish h (VStep.cast (VStep.readPanic hR hp hs) rfl ?_)
        simp only [view, View.finish, View.mk.injEq] at hv ⊢
        simp_all

theorem onRead_vstep {s s' : Smol} {c chunk : Bytes} {io : Bool} {T : Times} {o : List Obs}
    {v : View} (hn : s.network = some c) (hr : s.running = true) (ho : s.outgoing = [])
    (hv : { v with now := T.second } = s.view)
    (hR : v.Ready T) (h : s.onRead c chunk io T = some (s', o)) : VStep .smol v o s'.view ∧ s'.Good := by
  unfold onRead at h
  split at h
  · exact of_finish h (by rw [← hv]; exact .failed hR (by first | (simp; done) | exact ⟨(writePacket_error ‹_›).1, fun h => absurd h (writePacket_error ‹_›).2⟩))
  · split at h
    · simp at h
    · simp only at h
      split at h
      · refine onPacket_vstep (s := { s with network := _ }) rfl hr ho ?_ hR h
        simp only [view, View.mk.injEq] at hv ⊢
        simp_all
      · obtain ⟨rfl, rfl⟩ := some_inj h
        refine ⟨VStep.cast (.wait hR) rfl ?_, ho, by simp⟩
        simp only [view, View.mk.injEq] at hv ⊢
        simp_all
      · exact of_finish h (by rw [← hv]; exact .failed hR (by first | (simp; done) | exact ⟨(writePacket_error ‹_›).1, fun h => absurd h (writePacket_error ‹_›).2⟩))
      · refine of_finish h (VStep.cast (.crashed hR) rfl ?_)
        simp only [view, View.finish, View.mk.injEq] at hv ⊢
        simp_all

theorem onOutgoing_vstep {s s' : Smol} {io : Bool} {T : Times} {o : List Obs}
    {v : View} (hg : s.Good) (hv : { v with now := T.second } = s.view)
    (hR : v.Ready T) (h : s.onOutgoing io T = some (s', o)) : VStep .smol v o s'.view ∧ s'.Good := by
  have hsys : s.sys = v.sys := by rw [show v.sys = { v with now := T.second }.sys from rfl, hv]; rfl
  unfold onOutgoing at h
  split at h
  · split at h
    · exact of_finish h (by rw [← hv]; exact .failed hR ⟨by simp, fun _ => by rw [← hsys]; exact ⟨‹_›, ‹_›⟩⟩)
    · simp at h
  · rename_i p rest hq
    split at h
    · split at h
      · rename_i e _ sys ev hs
        rw [hsys] at hs
        obtain ⟨p', _, -, ⟨h', -⟩ | ⟨-, rfl⟩⟩ := Sys.step_write_event hs
        · simp at h'
        · refine of_finish h (VStep.cast (.outFail hR (writePacket_error ‹_›) hs) rfl ?_)
          simp only [view, View.finish, View.mk.injEq] at hv ⊢
          simp_all
      · simp at h
    · split at h
      · rename_i sys q hs
        rw [hsys] at hs
        obtain ⟨p', rest', hq', ⟨-, h' | ⟨_, h'⟩ | h'⟩ | ⟨h', -⟩⟩ := Sys.step_write_event hs
        · cases h'
          rw [hsys, hq'] at hq
          cases hq
          simp only at h
          split at h
          · rename_i hd
            refine of_finish h (VStep.cast (.outDisc hR hs hd) rfl ?_)
            simp only [view, View.finish, View.mk.injEq] at hv ⊢
            simp_all
          · rename_i hd
            obtain ⟨rfl, rfl⟩ := some_inj h
            refine ⟨VStep.cast (.outOk hR hs (by simpa using hd)) rfl ?_, hg.1, hg.2⟩
            simp only [view, View.mk.injEq] at hv ⊢
            simp_all
        · cases h'
        · cases h'
        · cases h'
      · rename_i sys q e hs
        rw [hsys] at hs
        obtain ⟨p', rest', hq', ⟨-, h' | ⟨_, h'⟩ | h'⟩ | ⟨h', -⟩⟩ := Sys.step_write_event hs
        · cases h'
        · cases h'
          rw [hsys, hq'] at hq
          cases hq
          refine of_finish h (VStep.cast (.outErr hR hs) rfl ?_)
          simp only [view, View.finish, View.mk.injEq] at hv ⊢
          simp_all
        · cases h'
        · cases h'
      · rename_i sys hs
        rw [hsys] at hs hq
        refine of_finish h (VStep.cast (.outPanic hR hq hs) rfl ?_)
        simp only [view, View.finish, View.mk.injEq] at hv ⊢
        simp_all
      · simp at h

theorem onTimer_vstep {s s' : Smol} {io : Bool} {T : Times} {o : List Obs}
    {v : View} (hg : s.Good) (hv : { v with now := T.second } = s.view)
    (hR : v.Ready T) (h : s.onTimer io T = some (s', o)) : VStep .smol v o s'.view ∧ s'.Good := by
  have haw : v.await = s.await := by
    rw [show v.await = { v with now := T.second }.await from rfl, hv]; rfl
  have hka : v.keepAlive = s.keepAlive := by
    rw [show v.keepAlive = { v with now := T.second }.keepAlive from rfl, hv]; rfl
  have hla : v.lastAction = s.lastAction := by
    rw [show v.lastAction = { v with now := T.second }.lastAction from rfl, hv]; rfl
  have hpf : v.perform = s.perform := by
    rw [show v.perform = { v with now := T.second }.perform from rfl, hv]; rfl
  unfold onTimer at h
  split at h
  · rename_i hsl
    have hsl := of_decide_eq_true hsl
    simp only [sleep] at hsl
    split at h
    · rename_i hp
      simp only [Bool.and_eq_true, Option.isNone_iff_eq_none] at hp
      rw [hp.1, hp.2] at hsl
      split at h
      · obtain ⟨rfl, rfl⟩ := some_inj h
        refine ⟨VStep.cast (.pingReq hR (by rw [haw]; exact hp.1) (by rw [hpf]; exact hp.2) ?_) rfl ?_, hg.1, hg.2⟩
        · rw [hka, hla]; simp at hsl; omega
        · simp only [view, View.mk.injEq] at hv ⊢
          simp_all
      · exact of_finish h (by rw [← hv]; exact .failed hR (by first | (simp; done) | exact ⟨(writePacket_error ‹_›).1, fun h => absurd h (writePacket_error ‹_›).2⟩))
    · rename_i hp
      split at h
      · cases hf : s.perform with
        | false =>
          rw [hf] at hsl
          refine of_finish h (VStep.cast (.idleTimeout hR rfl (by rw [hpf]; exact hf) (by simpa using hsl)) rfl ?_)
          rw [hv]
        | true =>
          cases ha : s.await with
          | none => simp [hf, ha] at hp
          | some t =>
            rw [hf, ha] at hsl
            refine of_finish h (VStep.cast (.timeout hR (by rw [haw]; exact ha) ?_) rfl ?_)
            · rw [hka]; simp at hsl; omega
            · rw [hv]
      · exact of_finish h (by rw [← hv]; exact .failed hR (by first | (simp; done) | exact ⟨(writePacket_error ‹_›).1, fun h => absurd h (writePacket_error ‹_›).2⟩))
  · simp at h

theorem turn_vstep {s s' : Smol} {b : SmolBranch} {io : Bool} {T : Times} {o : List Obs} (hg : s.Good)
    (h : s.turn b io T = some (s', o)) : VStep .smol s.view o s'.view ∧ s'.Good := by
  unfold turn at h
  split at h
  · rename_i c hn
    split at h
    · rename_i hc
      simp only [Bool.and_eq_true] at hc
      have hR : s.view.Ready T := ⟨hc.2, by simp [view, hn], hc.1.2, hc.1.1⟩
      have hv : { s.view with now := T.second } = { s with now := T.second : Smol }.view := rfl
      have hg' : { s with now := T.second : Smol }.Good := ⟨hg.1, hg.2⟩
      split at h
      · exact onRead_vstep (s := { s with now := T.second }) hn hc.2 hg.1 hv hR h
      · exact of_finish h (by rw [← hv]; exact .failed hR (by first | (simp; done) | exact ⟨(writePacket_error ‹_›).1, fun h => absurd h (writePacket_error ‹_›).2⟩))
      · exact onOutgoing_vstep hg' hv hR h
      · exact onTimer_vstep hg' hv hR h
    · simp at h
  · simp at h

theorem established_vstep {s s' : Smol} {c : ConnAck} {rest : Bytes} {i : SmolConnect} {obs o : List Obs}
    {v : View} {cn a b} (hr : v.running = false) (ha : v.sys.alive = true) (ht : i.times.ok v.now = true)
    (hc : c.reason = .success) (hg : s.Good) (hv : { v with now := i.times.second } = s.view)
    (ho : obs = [.wrote (.connect cn) a b, .read (.connAck c)])
    (h : s.established c rest i obs = some (s', o)) : VStep .smol v o s'.view ∧ s'.Good := by
  have hsys : s.sys = v.sys := by rw [show v.sys = { v with now := i.times.second }.sys from rfl, hv]; rfl
  subst ho
  unfold established at h
  simp only at h
  generalize hs1 : s.noteConnAck c i.times.fire = s1 at h
  have hv1 : s1.view = v.afterConnAck c i.times ∧ s1.sys = v.sys ∧ s1.Good ∧ s1.running = false := by
    subst hs1
    simp only [view, View.mk.injEq, View.afterConnAck, noteConnAck] at hv ⊢
    obtain ⟨e1, e2, e3, e4, e5, e6, e7, e8⟩ := hv
    exact ⟨⟨e1.symm, by rw [e2]; rfl, by rw [e2, e3]; rfl, trivial, e5.symm, e6.symm, e7.symm, e8.symm⟩, hsys,
      ⟨hg.1, hg.2⟩, by rw [← e7]; exact hr⟩
  obtain ⟨hv1, hsys1, hg1, hr1⟩ := hv1
  rw [hsys1] at h
  cases hs : v.sys.step (.connAck c) with
  | none => rw [hs] at h; simp at h
  | some x =>
    obtain ⟨sys, e⟩ := x
    rw [hs] at h
    rcases Sys.step_connAck_event hs with ⟨ps, rfl⟩ | rfl | ⟨er, rfl⟩ | rfl
    · simp only at h
      split at h
      · obtain ⟨rfl, rfl⟩ := some_inj h
        refine ⟨VStep.cast (.established (a := a) (b := b) (cn := cn) hr ha ht hc hs (.refl _) (by simp))
          (by simp [wrotes]) ?_, hg1.1, by simp⟩
        rw [← hv1]
        simp [view]
      · rename_i er _
        obtain ⟨rfl, rfl⟩ := some_inj h
        refine ⟨VStep.cast (.establishFail (a := a) (b := b) (cn := cn) (e := er) (ws := []) hr ha ht hc hs
          (List.nil_sublist _) (fun _ => rfl)) (by simp [wrotes]) ?_, hg1.1, by simp [hr1]⟩
        rw [← hv1]
        simp [view]
    · simp at h
    · obtain ⟨rfl, rfl⟩ := some_inj h
      refine ⟨VStep.cast (.establishErr (a := a) (b := b) (cn := cn) hr ha ht hc hs) rfl ?_, hg1.1, by simp [hr1]⟩
      rw [← hv1]
      simp [view]
    · obtain ⟨rfl, rfl⟩ := some_inj h
      refine ⟨VStep.cast (.establishPanic (a := a) (b := b) (cn := cn) hr ha ht hc hs) rfl ?_, hg1.1, by simp [hr1]⟩
      rw [← hv1]
      simp [view]

theorem connect_vstep {s s' : Smol} {i : SmolConnect} {o : List Obs} (hg : s.Good)
    (h : s.connect i = some (s', o)) : VStep .smol s.view o s'.view ∧ s'.Good := by
  unfold connect at h
  split at h
  · rename_i hc
    simp only [Bool.and_eq_true, Bool.not_eq_true'] at hc
    obtain ⟨⟨ht, ha⟩, hr⟩ := hc
    have hr : s.view.running = false := hr
    simp only [Options.connectPacket] at h
    split at h
    · obtain ⟨rfl, rfl⟩ := some_inj h
      exact ⟨.connectFailed (T := i.times) hr ha ht (.inl rfl), hg.1, hg.2⟩
    · split at h
      · split at h
        · rename_i hcs
          exact established_vstep (s := { s with now := i.times.second }) (v := s.view) hr ha ht hcs ⟨hg.1, hg.2⟩ rfl rfl h
        · rename_i hcs
          obtain ⟨rfl, rfl⟩ := some_inj h
          exact ⟨.refused (T := i.times) hr ha ht hcs, hg.1, hg.2⟩
      · rename_i p _ hne _
        obtain ⟨rfl, rfl⟩ := some_inj h
        exact ⟨.notConnAck (T := i.times) hr ha ht fun c hpc => by simp_all, hg.1, hg.2⟩
      · simp at h
      · obtain ⟨rfl, rfl⟩ := some_inj h
        exact ⟨.connectFailed (T := i.times) hr ha ht (.inr ⟨_, _, _, rfl⟩), hg.1, hg.2⟩
      · obtain ⟨rfl, rfl⟩ := some_inj h
        exact ⟨.connectCrashed (T := i.times) hr ha ht, hg.1, fun h => absurd (hr.symm.trans h) (by simp)⟩
      · simp at h
  · simp at h

theorem step_vstep {s s' : Smol} {op : SmolOp} {o : List Obs} (hg : s.Good) (h : s.step op = some (s', o)) :
    VStep .smol s.view o s'.view ∧ s'.Good := by
  cases op with
  | client op =>
    simp only [step] at h
    split at h
    · rename_i hc
      split at h
      · rename_i sys e hs
        obtain ⟨rfl, rfl⟩ := some_inj h
        exact ⟨.client hc hs, hg.1, hg.2⟩
      · simp at h
    · simp at h
  | dropNetwork =>
    simp only [step] at h
    split at h
    · simp at h
    · rename_i hc
      split at h
      · rename_i sys e hs
        obtain ⟨rfl, rfl⟩ := some_inj h
        exact ⟨.drop (by simpa [view] using hc) hs, hg.1, fun h => absurd h hc⟩
      · simp at h
  | connect i => exact connect_vstep hg h
  | start =>
    simp only [step] at h
    split at h
    · rename_i hc
      simp only [Bool.and_eq_true, Bool.not_eq_true'] at hc
      split at h
      · rename_i hn
        obtain ⟨rfl, rfl⟩ := some_inj h
        exact ⟨.noNetwork hc.1 hc.2 (by simp [view, hn]), hg.1, hg.2⟩
      · rename_i hn
        obtain ⟨rfl, rfl⟩ := some_inj h
        exact ⟨.start hc.1 hc.2 (by simp [view, hn]), hg.1, fun _ => by simp [hn]⟩
    · simp at h
  | turn b io T => exact turn_vstep hg h
  | cancel =>
    simp only [step] at h
    split at h
    · rename_i hr
      obtain ⟨rfl, rfl⟩ := some_inj h
      refine ⟨VStep.cast (.cancel hr (hg.2 hr)) rfl ?_, hg.1, by simp⟩
      simp [view]
    · simp at h

end Smol
end Mqrstt
