import Verif.Proof.View
/-! # The tokio network makes the steps of `VStep` -/

namespace Mqrstt

namespace Tokio

def view (s : Tokio) : View :=
  ⟨s.sys, s.options.keepAlive, s.perform, s.lastAction, s.run.join, s.network.isSome, s.run.isSome, s.now⟩

theorem finish_view (s : Tokio) (obs : List Obs) (e : End) :
    (s.finish obs e).1.view = s.view.finish ∧ (s.finish obs e).2 = obs ++ [.ended e] := by
  simp [finish, view, View.finish]

theorem some_inj {s s' : Tokio} {o o' : List Obs} (h : some (s, o) = some (s', o')) : s = s' ∧ o = o' := by
  simpa using h

theorem writePacket_error {p : Packet} {io : Bool} {e : ConnErr} (h : writePacket p io = .error e) : e.ofPacket := by
  unfold writePacket at h
  repeat' split at h
  all_goals first | (simp at h; done) | (cases h; simp [ConnErr.ofPacket])

/-- the end of a run -/
theorem of_finish {v : View} {t s' : Tokio} {l o : List Obs} {e : End}
    (h : some (t.finish l e) = some (s', o)) (hv : VStep .tokio v (l ++ [.ended e]) t.view.finish) :
    VStep .tokio v o s'.view := by
  have := some_inj h
  obtain ⟨rfl, rfl⟩ := this
  exact hv

theorem onPacket_vstep {s s' : Tokio} {c : TokioConn} {p : Packet} {io : Bool} {T : Times} {o : List Obs}
    {v : View} (hn : s.network = some c) (hr : s.run.isSome = true) (hv : { v with now := T.second } = s.view)
    (hR : v.Ready T) (h : s.onPacket p io T = some (s', o)) : VStep .tokio v o s'.view := by
  have hsys : s.sys = v.sys := by rw [show v.sys = { v with now := T.second }.sys from rfl, hv]; rfl
  unfold onPacket at h
  split at h
  · obtain ⟨rfl, rfl⟩ := some_inj h
    refine VStep.cast (VStep.readPing hR) rfl ?_
    simp only [view, View.mk.injEq] at hv ⊢
    simp_all
  · refine of_finish h ?_
    rw [← hv]
    exact .readDisc hR
  · rename_i h1 h2
    have hp : p.forSession = true := by
      cases p <;> first | rfl | (exact absurd rfl h1) | (exact absurd rfl (h2 _))
    cases hs : s.sys.step (.receive p) with
    | none => rw [hs] at h; simp at h
    | some x =>
      obtain ⟨sys, e⟩ := x
      rw [hs] at h
      rw [hsys] at hs
      rcases Sys.step_receive_event hs with ⟨reply, shown, rfl⟩ | ⟨er, rfl⟩ | rfl
      · simp only at h
        cases reply with
        | none =>
          obtain ⟨rfl, rfl⟩ := some_inj h
          refine VStep.cast (VStep.accepted hR hp hs) ?_ ?_
          · simp [shownObs, wrotes]
          · simp only [view, View.mk.injEq] at hv ⊢
            simp_all
        | some r =>
          simp only at h
          cases hw : writePacket r io with
          | ok u =>
            rw [hw] at h
            obtain ⟨rfl, rfl⟩ := some_inj h
            refine VStep.cast (VStep.accepted hR hp hs) (by simp [shownObs, wrotes]) ?_
            simp only [view, View.mk.injEq] at hv ⊢
            simp_all
          | error e =>
            rw [hw] at h
            refine of_finish h ?_
            refine VStep.cast (VStep.acceptedFail (e := e) hR hp (writePacket_error ‹_›) hs) rfl ?_
            simp only [view, View.finish, View.mk.injEq] at hv ⊢
            simp_all
      · refine of_finish h ?_
        refine VStep.cast (VStep.refusedPacket hR hp hs) rfl ?_
        simp only [view, View.finish, View.mk.injEq] at hv ⊢
        simp_all
      · refine of_finish h ?_
        refine VStep.cast (VStep.readPanic hR hp hs) rfl ?_
        simp only [view, View.finish, View.mk.injEq] at hv ⊢
        simp_all

theorem onRead_vstep {s s' : Tokio} {c : TokioConn} {io : Bool} {T : Times} {o : List Obs}
    {v : View} (hn : s.network = some c) (hr : s.run.isSome = true) (hv : { v with now := T.second } = s.view)
    (hR : v.Ready T) (h : s.onRead c io T = some (s', o)) : VStep .tokio v o s'.view := by
  unfold onRead at h
  split at h
  · refine onPacket_vstep (s := { s with network := _ }) rfl hr ?_ hR h
    simp only [view, View.mk.injEq] at hv ⊢
    simp_all
  · exact of_finish h (by rw [← hv]; exact .failed hR (by first | (simp; done) | exact ⟨(writePacket_error ‹_›).1, fun h => absurd h (writePacket_error ‹_›).2⟩))
  · split at h
    · exact of_finish h (by rw [← hv]; exact .failed hR (by first | (simp; done) | exact ⟨(writePacket_error ‹_›).1, fun h => absurd h (writePacket_error ‹_›).2⟩))
    · simp at h
  · refine of_finish h (VStep.cast (.crashed hR) rfl ?_)
    simp only [view, View.finish, View.mk.injEq] at hv ⊢
    simp_all

theorem onOutgoing_vstep {s s' : Tokio} {io : Bool} {T : Times} {o : List Obs}
    {v : View} (hv : { v with now := T.second } = s.view)
    (hR : v.Ready T) (h : s.onOutgoing io T = some (s', o)) : VStep .tokio v o s'.view := by
  have hsys : s.sys = v.sys := by rw [show v.sys = { v with now := T.second }.sys from rfl, hv]; rfl
  unfold onOutgoing at h
  split at h
  · split at h
    · exact of_finish h (by rw [← hv]; exact .failed hR ⟨by simp, fun _ => by rw [← hsys]; exact ⟨‹_›, ‹_›⟩⟩)
    · simp at h
  · rename_i p rest hq
    split at h
    · split at h
      · rename_i e _ sys ev hs
        rw [hsys] at hs
        obtain ⟨p', _, -, ⟨h', -⟩ | ⟨-, rfl⟩⟩ := Sys.step_write_event hs
        · simp at h'
        · refine of_finish h (VStep.cast (.outFail hR (writePacket_error ‹_›) hs) rfl ?_)
          simp only [view, View.finish, View.mk.injEq] at hv ⊢
          simp_all
      · simp at h
    · split at h
      · rename_i sys q hs
        rw [hsys] at hs
        obtain ⟨p', rest', hq', ⟨-, h' | ⟨_, h'⟩ | h'⟩ | ⟨h', -⟩⟩ := Sys.step_write_event hs
        · cases h'
          rw [hsys, hq'] at hq
          cases hq
          simp only at h
          split at h
          · rename_i hd
            refine of_finish h (VStep.cast (.outDisc hR hs hd) rfl ?_)
            simp only [view, View.finish, View.mk.injEq] at hv ⊢
            simp_all
          · rename_i hd
            obtain ⟨rfl, rfl⟩ := some_inj h
            refine VStep.cast (.outOk hR hs (by simpa using hd)) rfl ?_
            simp only [view, View.mk.injEq] at hv ⊢
            simp_all
        · cases h'
        · cases h'
        · cases h'
      · rename_i sys q e hs
        rw [hsys] at hs
        obtain ⟨p', rest', hq', ⟨-, h' | ⟨_, h'⟩ | h'⟩ | ⟨h', -⟩⟩ := Sys.step_write_event hs
        · cases h'
        · cases h'
          rw [hsys, hq'] at hq
          cases hq
          refine of_finish h (VStep.cast (.outErr hR hs) rfl ?_)
          simp only [view, View.finish, View.mk.injEq] at hv ⊢
          simp_all
        · cases h'
        · cases h'
      · rename_i sys hs
        rw [hsys] at hs hq
        refine of_finish h (VStep.cast (.outPanic hR hq hs) rfl ?_)
        simp only [view, View.finish, View.mk.injEq] at hv ⊢
        simp_all
      · simp at h

theorem onTimer_vstep {s s' : Tokio} {aw : Option Nat} {io : Bool} {T : Times} {o : List Obs}
    {v : View} (hrun : s.run = some aw) (hv : { v with now := T.second } = s.view)
    (hR : v.Ready T) (h : s.onTimer aw io T = some (s', o)) : VStep .tokio v o s'.view := by
  have haw : v.await = aw := by
    rw [show v.await = { v with now := T.second }.await from rfl, hv]; simp [view, hrun]
  have hka : v.keepAlive = s.options.keepAlive := by
    rw [show v.keepAlive = { v with now := T.second }.keepAlive from rfl, hv]; rfl
  have hla : v.lastAction = s.lastAction := by
    rw [show v.lastAction = { v with now := T.second }.lastAction from rfl, hv]; rfl
  have hpf : v.perform = s.perform := by
    rw [show v.perform = { v with now := T.second }.perform from rfl, hv]; rfl
  unfold onTimer at h
  split at h
  · rename_i hsl
    split at h
    · split at h
      · rename_i hp
        split at h
        · obtain ⟨rfl, rfl⟩ := some_inj h
          refine VStep.cast (.pingReq hR haw (by rw [hpf]; exact hp) ?_) rfl ?_
          · rw [hka, hla]; have := of_decide_eq_true hsl; simp only [deadline] at this; omega
          · simp only [view, View.mk.injEq] at hv ⊢
            simp_all
        · exact of_finish h (by rw [← hv]; exact .failed hR (by first | (simp; done) | exact ⟨(writePacket_error ‹_›).1, fun h => absurd h (writePacket_error ‹_›).2⟩))
      · simp at h
    · split at h
      · refine of_finish h (VStep.cast (.timeout hR haw ?_) rfl ?_)
        · rw [hka]; have := of_decide_eq_true hsl; simp only [deadline] at this; omega
        · rw [hv]
      · exact of_finish h (by rw [← hv]; exact .failed hR (by first | (simp; done) | exact ⟨(writePacket_error ‹_›).1, fun h => absurd h (writePacket_error ‹_›).2⟩))
  · simp at h

theorem turn_vstep {s s' : Tokio} {b : TokioBranch} {lost : Nat} {io : Bool} {T : Times} {o : List Obs}
    (h : s.turn b lost io T = some (s', o)) : VStep .tokio s.view o s'.view := by
  unfold turn at h
  split at h
  · rename_i aw c hrun hn
    split at h
    · rename_i hc
      simp only [Bool.and_eq_true] at hc
      have hR : s.view.Ready T := ⟨by simp [view, hrun], by simp [view, hn], hc.2, hc.1⟩
      have hv : { s.view with now := T.second } = { s with now := T.second : Tokio }.view := rfl
      split at h
      · exact onRead_vstep (s := { s with now := T.second }) hn (by simp [hrun]) hv hR h
      · exact of_finish h (by rw [← hv]; exact .failed hR (by first | (simp; done) | exact ⟨(writePacket_error ‹_›).1, fun h => absurd h (writePacket_error ‹_›).2⟩))
      · split at h
        · refine onOutgoing_vstep ?_ hR h
          simp [view, hn]
        · simp at h
      · split at h
        · refine onTimer_vstep ?_ ?_ hR h
          · exact hrun
          · simp [view, hn]
        · simp at h
    · simp at h
  · simp at h

theorem writePackets_wrotes (ok : Nat → Bool) (T : Times) (ps : List Packet) (i : Nat) :
    ∃ ws, ws.Sublist ps ∧ writePackets ok T i ps = wrotes T ws := by
  induction ps generalizing i with
  | nil => exact ⟨[], .refl _, rfl⟩
  | cons p ps ih =>
    obtain ⟨ws, h1, h2⟩ := ih (i + 1)
    simp only [writePackets]
    split
    · exact ⟨p :: ws, h1.cons_cons p, by rw [h2]; rfl⟩
    · exact ⟨ws, h1.cons p, h2⟩

theorem established_vstep {s s' : Tokio} {c : ConnAck} {rest : Bytes} {i : TokioConnect} {obs o : List Obs}
    {v : View} {cn a b} (hr : v.running = false) (ha : v.sys.alive = true) (ht : i.times.ok v.now = true)
    (hc : c.reason = .success) (hrun : s.run = none) (hv : { v with now := i.times.second } = s.view)
    (ho : obs = [.wrote (.connect cn) a b, .read (.connAck c)])
    (h : s.established c rest i obs = some (s', o)) : VStep .tokio v o s'.view := by
  have hsys : s.sys = v.sys := by rw [show v.sys = { v with now := i.times.second }.sys from rfl, hv]; rfl
  subst ho
  unfold established at h
  simp only at h
  generalize hs1 : s.noteConnAck c i.times.fire = s1 at h
  have hv1 : s1.view = v.afterConnAck c i.times ∧ s1.sys = v.sys ∧ s1.run = none := by
    subst hs1
    simp only [view, View.mk.injEq, View.afterConnAck, noteConnAck] at hv ⊢
    obtain ⟨e1, e2, e3, e4, e5, e6, e7, e8⟩ := hv
    exact ⟨⟨e1.symm, by rw [e2]; rfl, by rw [e2, e3]; rfl, trivial, e5.symm, e6.symm, e7.symm, e8.symm⟩, hsys, hrun⟩
  obtain ⟨hv1, hsys1, hrun1⟩ := hv1
  rw [hsys1] at h
  cases hs : v.sys.step (.connAck c) with
  | none => rw [hs] at h; simp at h
  | some x =>
    obtain ⟨sys, e⟩ := x
    rw [hs] at h
    rcases Sys.step_connAck_event hs with ⟨ps, rfl⟩ | rfl | ⟨er, rfl⟩ | rfl
    · obtain ⟨ws, hw, hww⟩ := writePackets_wrotes i.resendOk i.times ps 0
      simp only [hww] at h
      split at h
      · obtain ⟨rfl, rfl⟩ := some_inj h
        refine VStep.cast (.established (a := a) (b := b) (cn := cn) hr ha ht hc hs hw (by simp)) (by simp) ?_
        rw [← hv1]
        simp [view, hrun1]
      · obtain ⟨rfl, rfl⟩ := some_inj h
        refine VStep.cast (.establishFail (a := a) (b := b) (cn := cn) (e := .io) hr ha ht hc hs hw (by intro h; cases h)) (by simp) ?_
        rw [← hv1]
        simp [view]
    · simp at h
    · obtain ⟨rfl, rfl⟩ := some_inj h
      refine VStep.cast (.establishErr (a := a) (b := b) (cn := cn) hr ha ht hc hs) rfl ?_
      rw [← hv1]
      simp [view]
    · obtain ⟨rfl, rfl⟩ := some_inj h
      refine VStep.cast (.establishPanic (a := a) (b := b) (cn := cn) hr ha ht hc hs) rfl ?_
      rw [← hv1]
      simp [view]

theorem connect_vstep {s s' : Tokio} {i : TokioConnect} {o : List Obs}
    (h : s.connect i = some (s', o)) : VStep .tokio s.view o s'.view := by
  unfold connect at h
  split at h
  · rename_i hc
    simp only [Bool.and_eq_true, Option.isNone_iff_eq_none] at hc
    obtain ⟨⟨ht, ha⟩, hrun⟩ := hc
    have hr : s.view.running = false := by simp [view, hrun]
    simp only [Options.connectPacket] at h
    split at h
    · obtain ⟨rfl, rfl⟩ := some_inj h
      exact .connectFailed (T := i.times) hr ha ht (.inl rfl)
    · split at h
      · split at h
        · rename_i hcs
          exact established_vstep (s := { s with now := i.times.second }) (v := s.view) hr ha ht hcs hrun rfl rfl h
        · rename_i hcs
          obtain ⟨rfl, rfl⟩ := some_inj h
          exact .refused (T := i.times) hr ha ht hcs
      · rename_i p _ hne _
        obtain ⟨rfl, rfl⟩ := some_inj h
        exact .notConnAck (T := i.times) hr ha ht fun c hpc => hne c hpc
      · obtain ⟨rfl, rfl⟩ := some_inj h
        exact .connectFailed (T := i.times) hr ha ht (.inr ⟨_, _, _, rfl⟩)
      · split at h
        · obtain ⟨rfl, rfl⟩ := some_inj h
          exact .connectFailed (T := i.times) hr ha ht (.inr ⟨_, _, _, rfl⟩)
        · simp at h
      · obtain ⟨rfl, rfl⟩ := some_inj h
        exact .connectCrashed (T := i.times) hr ha ht
  · simp at h

theorem step_vstep {s s' : Tokio} {op : TokioOp} {o : List Obs} (h : s.step op = some (s', o)) :
    VStep .tokio s.view o s'.view := by
  cases op with
  | client op =>
    simp only [step] at h
    split at h
    · rename_i hc
      split at h
      · rename_i sys e hs
        obtain ⟨rfl, rfl⟩ := some_inj h
        exact .client hc hs
      · simp at h
    · simp at h
  | dropNetwork =>
    simp only [step] at h
    split at h
    · rename_i hc
      split at h
      · rename_i sys e hs
        obtain ⟨rfl, rfl⟩ := some_inj h
        exact .drop (by simpa [view] using hc) hs
      · simp at h
    · simp at h
  | connect i => exact connect_vstep h
  | start =>
    simp only [step] at h
    split at h
    · rename_i hc
      simp only [Bool.and_eq_true, Option.isNone_iff_eq_none] at hc
      split at h
      · rename_i hn
        obtain ⟨rfl, rfl⟩ := some_inj h
        exact .noNetwork (by simp [view, hc.1]) hc.2 (by simp [view, hn])
      · rename_i hn
        obtain ⟨rfl, rfl⟩ := some_inj h
        refine VStep.cast (.start (by simp [view, hc.1]) hc.2 (by simp [view, hn])) rfl ?_
        simp [view, hc.1]
    · simp at h
  | arrive bs =>
    simp only [step] at h
    split at h
    · rename_i hn
      split at h
      · simp at h
      · obtain ⟨rfl, rfl⟩ := some_inj h
        exact VStep.cast .quiet rfl (by simp [view, hn])
    · simp at h
  | close =>
    simp only [step] at h
    split at h
    · rename_i hn
      obtain ⟨rfl, rfl⟩ := some_inj h
      exact VStep.cast .quiet rfl (by simp [view, hn])
    · simp at h
  | turn b lost io T => exact turn_vstep h
  | cancel lost =>
    simp only [step] at h
    split at h
    · rename_i hrun hn
      split at h
      · obtain ⟨rfl, rfl⟩ := some_inj h
        refine VStep.cast (.cancel (by simp [view, hrun]) (by simp [view, hn])) rfl ?_
        simp [view, hn]
      · simp at h
    · simp at h

end Tokio
end Mqrstt
