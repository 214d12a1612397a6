import Verif.Proof.Discipline
import Verif.Proof.KeepAlive
/-! # Which CONNECT is written -/

namespace Mqrstt
open Spec

theorem resent_of_connected {s s' : Sys} {c c' : ConnAck} {ps : List Packet}
    (h : s.step (.connAck c) = some (s', .connected c' ps)) : ∀ p ∈ ps, p.resent := by
  obtain rfl : c' = c := by
    rcases Sys.step_connAck_event h with ⟨_, h⟩ | h | ⟨_, h⟩ | h <;> simp_all
  exact Sys.step_connected_resent h

def isConnectObs : Obs → Bool
  | .wrote (.connect _) _ _ => true
  | _ => false

theorem VStep.connect_idle {fl v o w} (hu : v.sys.Users) (h : VStep fl v o w) (hx : ∃ x ∈ o, isConnectObs x = true) :
    v.running = false := by
  have user : ∀ {p : Packet}, p.fromUser → ∀ a b, isConnectObs (.wrote p a b) = false := by
    intro p hp a b
    cases p <;> first | rfl | simp [Packet.fromUser] at hp
  cases h
  case accepted h hp hs =>
    rename_i T p sys reply shown
    obtain ⟨x, hx, hc⟩ := hx
    have ha := Sys.step_answer hs
    exfalso
    cases shown <;> cases ha <;> simp [shownObs, wrotes] at hx <;> rcases hx with rfl | hx <;> try (simp [isConnectObs] at hc; done)
    all_goals (first | (subst hx; simp [isConnectObs] at hc; done) | (rcases hx with rfl | rfl <;> simp [isConnectObs] at hc))
  case acceptedFail h hp he hs =>
    rename_i T p sys reply shown e
    obtain ⟨x, hx, hc⟩ := hx
    exfalso
    cases shown <;> simp [shownObs] at hx <;> rcases hx with rfl | hx <;> try (simp [isConnectObs] at hc; done)
    all_goals (first | (subst hx; simp [isConnectObs] at hc; done) | (rcases hx with rfl | rfl <;> simp [isConnectObs] at hc))
  case outOk h hs hd =>
    simp [user (written_fromUser hu hs (.inl rfl))] at hx
  case outDisc h hs hd =>
    simp [user (written_fromUser hu hs (.inl rfl))] at hx
    simp [isConnectObs] at hx
  case outErr h hs =>
    simp [user (written_fromUser hu hs (.inr ⟨_, rfl⟩))] at hx
    simp [isConnectObs] at hx
  case outPanic h hq hs =>
    simp [user (hu _ (.inr (by rw [hq]; exact List.mem_cons_self)))] at hx
    simp [isConnectObs] at hx
  all_goals first | assumption | (simp [isConnectObs, keepAliveDisconnect] at hx)

theorem wrotes_noConnect {T : Times} {ws : List Packet} (h : ∀ p ∈ ws, p.resent) : ∀ x ∈ wrotes T ws, isConnectObs x = false := by
  intro x hx
  simp only [wrotes, List.mem_map] at hx
  obtain ⟨p, hp, rfl⟩ := hx
  have := h p hp
  cases p <;> first | rfl | simp [Packet.resent] at this

namespace Tokio

/-- the observations of `connect`: CONNECT first, if it can be written -/
theorem connect_head {s s' : Tokio} {i : TokioConnect} {o : List Obs} (h : s.connect i = some (s', o)) :
    ∃ o', (o = .wrote s.options.connectPacket i.times.enter i.times.fire :: o' ∨ o = o') ∧ ∀ x ∈ o', isConnectObs x = false := by
  simp only [connect] at h
  split at h
  · split at h
    · obtain ⟨-, rfl⟩ := some_inj h
      exact ⟨_, .inr rfl, by simp [isConnectObs]⟩
    · split at h
      · split at h
        · simp only [established] at h
          split at h
          · rename_i hs
            obtain ⟨ws, hsub, hw⟩ := writePackets_wrotes i.resendOk i.times ‹_› 0
            rw [hw] at h
            have hn := wrotes_noConnect (T := i.times) fun p hp => resent_of_connected hs p (hsub.subset hp)
            split at h
            all_goals
              obtain ⟨-, rfl⟩ := some_inj h
              refine ⟨_, .inl rfl, ?_⟩
              intro x hx
              simp only [List.append_eq, List.nil_append, List.cons_append, List.append_assoc, List.mem_cons, List.mem_append, List.not_mem_nil, or_false] at hx
              rcases hx with rfl | rfl | hx | rfl
              all_goals first | rfl | exact hn x hx
          · obtain ⟨-, rfl⟩ := some_inj h
            exact ⟨_, .inl rfl, by simp [isConnectObs]⟩
          · obtain ⟨-, rfl⟩ := some_inj h
            exact ⟨_, .inl rfl, by simp [isConnectObs]⟩
          · simp at h
        · obtain ⟨-, rfl⟩ := some_inj h
          exact ⟨_, .inl rfl, by simp [isConnectObs]⟩
      · obtain ⟨-, rfl⟩ := some_inj h
        exact ⟨_, .inl rfl, by simp [isConnectObs]⟩
      · obtain ⟨-, rfl⟩ := some_inj h
        exact ⟨_, .inl rfl, by simp [isConnectObs]⟩
      · split at h
        · obtain ⟨-, rfl⟩ := some_inj h
          exact ⟨_, .inl rfl, by simp [isConnectObs]⟩
        · simp at h
      · obtain ⟨-, rfl⟩ := some_inj h
        exact ⟨_, .inl rfl, by simp [isConnectObs]⟩
  · simp at h

theorem step_connect {s s' : Tokio} {op : TokioOp} {o1 o2 : List Obs} {c : Connect} {a b : Nat} (hu : s.sys.Users)
    (h : s.step op = some (s', o1 ++ .wrote (.connect c) a b :: o2)) : o1 = [] ∧ .connect c = s.options.connectPacket := by
  have hr := (step_vstep h).connect_idle hu ⟨.wrote (.connect c) a b, by simp, rfl⟩
  cases op with
  | client op =>
    simp only [step] at h
    split at h
    · split at h
      · obtain ⟨-, e⟩ := some_inj h
        cases o1 <;> simp at e
      · simp at h
    · simp at h
  | dropNetwork =>
    simp only [step] at h
    split at h
    · split at h
      · obtain ⟨-, e⟩ := some_inj h
        cases o1 <;> simp at e
      · simp at h
    · simp at h
  | connect i =>
    obtain ⟨o', he | he, hn⟩ := connect_head h
    · cases o1 with
      | nil =>
        simp only [List.nil_append, List.cons.injEq, Obs.wrote.injEq] at he
        exact ⟨rfl, he.1.1⟩
      | cons y o1 =>
        simp only [List.cons_append, List.cons.injEq] at he
        have := hn (.wrote (.connect c) a b) (by rw [← he.2]; simp)
        simp [isConnectObs] at this
    · have := hn (.wrote (.connect c) a b) (by rw [← he]; simp)
      simp [isConnectObs] at this
  | start =>
    simp only [step] at h
    split at h
    · split at h
      all_goals
        obtain ⟨-, e⟩ := some_inj h
        cases o1 <;> simp at e
    · simp at h
  | arrive bs =>
    simp only [step] at h
    split at h
    · split at h
      · simp at h
      · obtain ⟨-, e⟩ := some_inj h
        cases o1 <;> simp at e
    · simp at h
  | close =>
    simp only [step] at h
    split at h
    · obtain ⟨-, e⟩ := some_inj h
      cases o1 <;> simp at e
    · simp at h
  | turn br lost io T =>
    simp only [step, turn] at h
    split at h
    · rename_i h1 h2
      simp [view, h1] at hr
    · simp at h
  | cancel lost =>
    simp only [step] at h
    split at h
    · split at h
      · obtain ⟨-, e⟩ := some_inj h
        cases o1 <;> simp at e
      · simp at h
    · simp at h

/-- options, the keep-alive aside -/
def sameOptions (a b : Options) : Prop := ∃ k, b = { a with keepAlive := k }

theorem sameOptions.refl (a : Options) : sameOptions a a := ⟨a.keepAlive, rfl⟩

theorem onPacket_options {s s' : Tokio} {p io T o} (h : s.onPacket p io T = some (s', o)) : s'.options = s.options := by
  simp only [onPacket] at h
  split at h
  · obtain ⟨rfl, -⟩ := some_inj h; rfl
  · obtain ⟨rfl, -⟩ := some_inj h; rfl
  · split at h
    · split at h
      · obtain ⟨rfl, -⟩ := some_inj h; rfl
      · split at h
        · obtain ⟨rfl, -⟩ := some_inj h; rfl
        · obtain ⟨rfl, -⟩ := some_inj h; rfl
    · obtain ⟨rfl, -⟩ := some_inj h; rfl
    · obtain ⟨rfl, -⟩ := some_inj h; rfl
    · simp at h

theorem onRead_options {s s' : Tokio} {c io T o} (h : s.onRead c io T = some (s', o)) : s'.options = s.options := by
  simp only [onRead] at h
  split at h
  · exact (onPacket_options h).trans rfl
  · obtain ⟨rfl, -⟩ := some_inj h; rfl
  · split at h
    · obtain ⟨rfl, -⟩ := some_inj h; rfl
    · simp at h
  · obtain ⟨rfl, -⟩ := some_inj h; rfl

theorem onOutgoing_options {s s' : Tokio} {io T o} (h : s.onOutgoing io T = some (s', o)) : s'.options = s.options := by
  simp only [onOutgoing] at h
  split at h
  · split at h
    · obtain ⟨rfl, -⟩ := some_inj h; rfl
    · simp at h
  · split at h
    · split at h
      · obtain ⟨rfl, -⟩ := some_inj h; rfl
      · simp at h
    · split at h
      · split at h
        · obtain ⟨rfl, -⟩ := some_inj h; rfl
        · obtain ⟨rfl, -⟩ := some_inj h; rfl
      · obtain ⟨rfl, -⟩ := some_inj h; rfl
      · obtain ⟨rfl, -⟩ := some_inj h; rfl
      · simp at h

theorem onTimer_options {s s' : Tokio} {aw io T o} (h : s.onTimer aw io T = some (s', o)) : s'.options = s.options := by
  simp only [onTimer] at h
  split at h
  · split at h
    · split at h
      · split at h
        · obtain ⟨rfl, -⟩ := some_inj h; rfl
        · obtain ⟨rfl, -⟩ := some_inj h; rfl
      · simp at h
    · split at h
      · obtain ⟨rfl, -⟩ := some_inj h; rfl
      · obtain ⟨rfl, -⟩ := some_inj h; rfl
  · simp at h

theorem connect_options {s s' : Tokio} {i o} (h : s.connect i = some (s', o)) : sameOptions s.options s'.options := by
  simp only [connect] at h
  split at h
  · split at h
    · obtain ⟨rfl, -⟩ := some_inj h; exact .refl _
    · split at h
      · split at h
        · simp only [established] at h
          split at h
          · split at h
            all_goals
              obtain ⟨rfl, -⟩ := some_inj h
              exact ⟨_, rfl⟩
          · obtain ⟨rfl, -⟩ := some_inj h
            exact ⟨_, rfl⟩
          · obtain ⟨rfl, -⟩ := some_inj h
            exact ⟨_, rfl⟩
          · simp at h
        · obtain ⟨rfl, -⟩ := some_inj h; exact .refl _
      · obtain ⟨rfl, -⟩ := some_inj h; exact .refl _
      · obtain ⟨rfl, -⟩ := some_inj h; exact .refl _
      · split at h
        · obtain ⟨rfl, -⟩ := some_inj h; exact .refl _
        · simp at h
      · obtain ⟨rfl, -⟩ := some_inj h; exact .refl _
  · simp at h

theorem step_options {s s' : Tokio} {op o} (h : s.step op = some (s', o)) : sameOptions s.options s'.options := by
  suffices h' : s'.options = s.options ∨ sameOptions s.options s'.options by
    rcases h' with h' | h'
    · rw [h']; exact .refl _
    · exact h'
  cases op with
  | connect i => exact .inr (connect_options h)
  | turn b lost io T =>
    left
    simp only [step, turn] at h
    split at h
    · split at h
      · cases b with
        | read => exact (onRead_options h).trans rfl
        | readError => obtain ⟨rfl, -⟩ := some_inj h; rfl
        | outgoing =>
          simp only at h
          split at h
          · exact (onOutgoing_options h).trans rfl
          · simp at h
        | timer =>
          simp only at h
          split at h
          · exact (onTimer_options h).trans rfl
          · simp at h
      · simp at h
    · simp at h
  | _ =>
    left
    simp only [step] at h
    repeat' split at h
    all_goals first
      | (simp at h; done)
      | (obtain ⟨rfl, -⟩ := some_inj h; rfl)

end Tokio

namespace Smol

theorem connect_head {s s' : Smol} {i : SmolConnect} {o : List Obs} (h : s.connect i = some (s', o)) :
    ∃ o', (o = .wrote s.options.connectPacket i.times.enter i.times.fire :: o' ∨ o = o') ∧ ∀ x ∈ o', isConnectObs x = false := by
  simp only [connect] at h
  split at h
  · split at h
    · obtain ⟨-, rfl⟩ := some_inj h
      exact ⟨_, .inr rfl, by simp [isConnectObs]⟩
    · split at h
      · split at h
        · simp only [established] at h
          split at h
          · rename_i ps hs
            have hn := wrotes_noConnect (T := i.times) fun p hp => resent_of_connected hs p hp
            split at h
            · obtain ⟨-, rfl⟩ := some_inj h
              refine ⟨_, .inl rfl, ?_⟩
              intro x hx
              simp only [List.append_eq, List.nil_append, List.cons_append, List.append_assoc, List.mem_cons, List.mem_append, List.not_mem_nil, or_false] at hx
              rcases hx with rfl | rfl | hx | rfl
              all_goals first | rfl | exact hn x hx
            · obtain ⟨-, rfl⟩ := some_inj h
              exact ⟨_, .inl rfl, by simp [isConnectObs]⟩
          · obtain ⟨-, rfl⟩ := some_inj h
            exact ⟨_, .inl rfl, by simp [isConnectObs]⟩
          · obtain ⟨-, rfl⟩ := some_inj h
            exact ⟨_, .inl rfl, by simp [isConnectObs]⟩
          · simp at h
        · obtain ⟨-, rfl⟩ := some_inj h
          exact ⟨_, .inl rfl, by simp [isConnectObs]⟩
      · obtain ⟨-, rfl⟩ := some_inj h
        exact ⟨_, .inl rfl, by simp [isConnectObs]⟩
      · simp at h
      · obtain ⟨-, rfl⟩ := some_inj h
        exact ⟨_, .inl rfl, by simp [isConnectObs]⟩
      · obtain ⟨-, rfl⟩ := some_inj h
        exact ⟨_, .inl rfl, by simp [isConnectObs]⟩
      · simp at h
  · simp at h

theorem step_connect {s s' : Smol} {op : SmolOp} {o1 o2 : List Obs} {c : Connect} {a b : Nat} (hg : s.Good) (hu : s.sys.Users)
    (h : s.step op = some (s', o1 ++ .wrote (.connect c) a b :: o2)) : o1 = [] ∧ .connect c = s.options.connectPacket := by
  have hr := (step_vstep hg h).1.connect_idle hu ⟨.wrote (.connect c) a b, by simp, rfl⟩
  cases op with
  | connect i =>
    obtain ⟨o', he | he, hn⟩ := connect_head h
    · cases o1 with
      | nil =>
        simp only [List.nil_append, List.cons.injEq, Obs.wrote.injEq] at he
        exact ⟨rfl, he.1.1⟩
      | cons y o1 =>
        simp only [List.cons_append, List.cons.injEq] at he
        have := hn (.wrote (.connect c) a b) (by rw [← he.2]; simp)
        simp [isConnectObs] at this
    · have := hn (.wrote (.connect c) a b) (by rw [← he]; simp)
      simp [isConnectObs] at this
  | turn br io T =>
    have hr' : s.running = false := hr
    simp only [step, turn, hr', Bool.and_false, Bool.false_eq_true, if_false] at h
    split at h <;> simp at h
  | _ =>
    simp only [step] at h
    repeat' split at h
    all_goals first
      | (simp at h; done)
      | (obtain ⟨-, e⟩ := some_inj h; cases o1 <;> simp at e)

theorem flush_options (s : Smol) (obs io T) : (s.flushOutgoing obs io T).1.options = s.options := by
  simp only [flushOutgoing]
  split <;> rfl

theorem onPacket_options {s s' : Smol} {p io T o} (h : s.onPacket p io T = some (s', o)) : s'.options = s.options := by
  simp only [onPacket] at h
  split at h
  · have := flush_options { s with await := none } [.read .pingResp, .delivered .pingResp] io T
    rw [Option.some.inj h] at this; exact this
  · obtain ⟨rfl, -⟩ := some_inj h; rfl
  · split at h
    · exact (congrArg (·.1.options) (Option.some.inj h)).symm.trans (flush_options _ _ _ _)
    · obtain ⟨rfl, -⟩ := some_inj h; rfl
    · obtain ⟨rfl, -⟩ := some_inj h; rfl
    · simp at h

theorem step_options {s s' : Smol} {op o} (h : s.step op = some (s', o)) : s'.options = s.options := by
  cases op with
  | connect i =>
    simp only [step, connect, established] at h
    repeat' split at h
    all_goals first
      | (simp at h; done)
      | (obtain ⟨rfl, -⟩ := some_inj h; rfl)
  | turn b io T =>
    simp only [step, turn] at h
    split at h
    · split at h
      · cases b with
        | read chunk =>
          simp only [onRead] at h
          repeat' split at h
          all_goals first
            | (simp at h; done)
            | (obtain ⟨rfl, -⟩ := some_inj h; rfl)
            | exact (onPacket_options h).trans rfl
        | readError => obtain ⟨rfl, -⟩ := some_inj h; rfl
        | outgoing =>
          simp only [onOutgoing] at h
          repeat' split at h
          all_goals first
            | (simp at h; done)
            | (obtain ⟨rfl, -⟩ := some_inj h; rfl)
        | timer =>
          simp only [onTimer] at h
          repeat' split at h
          all_goals first
            | (simp at h; done)
            | (obtain ⟨rfl, -⟩ := some_inj h; rfl)
      · simp at h
    · simp at h
  | _ =>
    simp only [step] at h
    repeat' split at h
    all_goals first
      | (simp at h; done)
      | (obtain ⟨rfl, -⟩ := some_inj h; rfl)

end Smol

/-! ## histories -/

theorem tokio_options (o : Options) (t : Nat) (ops : List TokioOp) : Tokio.sameOptions o (tokio o t ops).options :=
  history_induct Tokio.step (fun s _ => Tokio.sameOptions o s.options) (.refl _)
    (fun _ _ _ _ _ h hs => by
      obtain ⟨k, h1⟩ := h
      obtain ⟨k', h2⟩ := Tokio.step_options hs
      exact ⟨k', by rw [h2, h1]⟩) ops

theorem smol_options (k : Bool) (o : Options) (t : Nat) (ops : List SmolOp) : (smol k o t ops).options = o :=
  history_induct Smol.step (fun s _ => s.options = o) rfl
    (fun _ _ _ _ _ h hs => (Smol.step_options hs).trans h) ops

theorem tokio_connect {o : Options} {t : Nat} {ops : List TokioOp} {pre post : List Obs} {c : Connect} {a b : Nat}
    (h : tokioTrace o t ops = pre ++ .wrote (.connect c) a b :: post) :
    .connect c = ({ o with keepAlive := (ka o.keepAlive pre).interval } : Options).connectPacket := by
  obtain ⟨ops1, op, ops2, s', o1, o2, rfl, h1, h2, h3⟩ := history_split Tokio.step h
  obtain ⟨rfl, hc⟩ := Tokio.step_connect (Tokio.vrun o t ops1).users h1
  rw [List.append_nil] at h2
  subst h2
  rw [hc]
  obtain ⟨k, hk⟩ := tokio_options o t ops1
  have hka := congrArg Ka.interval (Tokio.vrun o t ops1).ka
  have hk' : (tokio o t ops1).options.keepAlive = k := by rw [hk]
  have : k = (ka o.keepAlive (tokioTrace o t ops1)).interval := hk'.symm.trans hka
  show (tokio o t ops1).options.connectPacket = _
  rw [hk, this]
  rfl

theorem smol_connect {k : Bool} {o : Options} {t : Nat} {ops : List SmolOp} {pre post : List Obs} {c : Connect} {a b : Nat}
    (h : smolTrace k o t ops = pre ++ .wrote (.connect c) a b :: post) : .connect c = o.connectPacket := by
  obtain ⟨ops1, op, ops2, s', o1, o2, rfl, h1, h2, h3⟩ := history_split Smol.step h
  have hv := Smol.vrun_good k o t ops1
  obtain ⟨rfl, hc⟩ := Smol.step_connect hv.2 hv.1.users h1
  rw [hc]
  exact congrArg Options.connectPacket (smol_options k o t ops1)

end Mqrstt
