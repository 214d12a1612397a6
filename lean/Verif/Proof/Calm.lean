import Verif.Spec.Calm
import Verif.Proof.Reconnect
import Verif.Proof.Progress
import Verif.Proof.Patience
import Verif.Proof.Understood
import Verif.Proof.Partway
import Verif.Props.Recognised
/-! # `run` ends only for a reason from outside (C108) -/

namespace Mqrstt
open Mqrstt.Spec _root_.Spec Mqrstt.Props

/-! ## bytes -/

theorem open_stream {R : Bytes → Packet → Bytes → Prop} (ext : ∀ b p b' m, R b p b' → R (b ++ m) p (b' ++ m))
    (fn : ∀ b p b' q c', R b p b' → R b q c' → p = q ∧ b' = c') (hnil : ∀ p b', ¬ R [] p b')
    (hR : ∀ q b, Readable q b → R b q []) {bs rest : Bytes} {ps : List Packet} (h : Stream R bs ps rest)
    {qs : List Packet} {sent : Bytes} (hs : ListSays Readable qs sent) (hb : bs <+: sent) :
    rest = [] ∨ (¬ Hopeless R rest ∧ ∀ p r, R rest p r → ∃ b, Readable p b) := by
  induction h generalizing qs sent with
  | nil bs =>
    obtain ⟨m, e⟩ := hb
    cases hs with
    | nil =>
      left
      exact (List.append_eq_nil_iff.1 e).1
    | @cons q qs b sent hq _ =>
      right
      have h1 := ext _ _ _ sent (hR _ _ hq)
      rw [← e, List.nil_append] at h1
      refine ⟨fun hh => hh m q sent h1, fun p r hp => ?_⟩
      obtain ⟨rfl, -⟩ := fn _ _ _ _ _ (ext _ _ _ m hp) h1
      exact ⟨b, hq⟩
  | @cons bs bs' rest p ps h _ ih =>
    obtain ⟨m, e⟩ := hb
    cases hs with
    | nil =>
      rw [(List.append_eq_nil_iff.1 e).1] at h
      exact absurd h (hnil _ _)
    | @cons q qs b sent hq hs =>
      have h1 := ext _ _ _ sent (hR _ _ hq)
      rw [← e, List.nil_append] at h1
      obtain ⟨-, rfl⟩ := fn _ _ _ _ _ (ext _ _ _ m h) h1
      exact ih hs ⟨m, rfl⟩

theorem SmolStream.parse_panic {b : Bytes} (h : SmolStream.parse false b = .panic) : Hopeless BufferPacket b := by
  simp only [SmolStream.parse] at h
  split at h
  · cases h
  · cases h
  · exact hopeless_header ‹_›
  · rename_i hd hl hh
    split at h
    · simp only [usizeSub] at h
      split at h <;> (rename_i h'; split at h' <;> cases h'; try cases h)
      all_goals cases h
    · rename_i hlen
      simp only [SmolStream.decode] at h
      split at h
      · cases h
      · cases h
      · exact hopeless_body hh (by omega) ‹_›

/-! ## writing -/

theorem Sendable.tokio_writes {p : Packet} (h : Sendable p) {io : Bool} {e : ConnErr} (he : Tokio.writePacket p io = .error e) :
    e = .io := by
  obtain ⟨-, bs, n, e', -⟩ := (Legal.fine h.1 h.2).written
  simp only [Tokio.writePacket, e'] at he
  cases io <;> simp at he
  exact he.symm

theorem Sendable.smol_writes {p : Packet} (h : Sendable p) {io : Bool} {e : ConnErr} (he : Smol.writePacket p io = .error e) :
    e = .io := by
  obtain ⟨⟨bs, e', -⟩, -⟩ := (Legal.fine h.1 h.2).written
  simp only [Smol.writePacket, e'] at he
  cases io <;> simp at he
  exact he.symm

theorem smol_writes_all {ps : List Packet} (h : ∀ p ∈ ps, Sendable p) {io : Bool} {e : ConnErr}
    (he : Smol.writeAll ps io = .error e) : e = .io := by
  induction ps with
  | nil =>
    simp only [Smol.writeAll] at he
    cases io <;> simp at he
    exact he.symm
  | cons p ps ih =>
    obtain ⟨⟨bs, e', -⟩, -⟩ := (Legal.fine (h p (by simp)).1 (h p (by simp)).2).written
    simp only [Smol.writeAll, e'] at he
    exact ih (fun q hq => h q (by simp [hq])) he

/-! ## the session -/

/-- the identifier of a publish in the queue is no larger than the send maximum -/
theorem not_beyond_of {o : Options} {s : Sys} (h : ∃ sops, s = client o.config sops) (ha : s.alive = true)
    (hmax : o.sendMaximum ≤ o.receiveMaximum) {p : Packet} {rest : List Packet} (hq : s.queue = p :: rest) :
    ¬ BeyondReceiveMax o p := by
  obtain ⟨sops, hc⟩ := h
  have hi := inv o.config sops
  rw [← hc] at hi
  cases p <;> simp only [BeyondReceiveMax, not_false_eq_true]
  rename_i q
  rintro ⟨id, hid, hlt⟩
  obtain ⟨failed, hf⟩ := (hi.live ha).queued
  have h1 := hf id
  rw [hq, count_filterMap_cons] at h1
  have hident : Packet.ident (.publish q) = some id := hid
  rw [hident, ind_self] at h1
  have hids : id ∈ (ledger o.config sops).ids := by
    have : id ∈ (ledger o.config sops).queued := List.count_pos_iff.mp (by omega)
    simp [Ledger.ids, this]
  have h2 : id ∈ (Pool.new o.config.sendMax).queue := by
    have h3 := hi.cnt id
    have h4 := List.count_pos_iff.mpr hids
    exact List.count_pos_iff.mp (by omega)
  have h3 := ((Pool.mem_new _ _).mp h2).2
  have h3 : id.toNat ≤ o.sendMaximum.toNat := h3
  have h4 : o.sendMaximum.toNat ≤ o.receiveMaximum.toNat := hmax
  omega

theorem VRun.not_beyond {fl o t tr v} (h : VRun fl (View.init o t) tr v) (ha : v.sys.alive = true)
    (hmax : o.sendMaximum ≤ o.receiveMaximum) {p : Packet} {rest : List Packet} (hq : v.sys.queue = p :: rest) :
    ¬ BeyondReceiveMax o p := not_beyond_of (h.contains.imp fun _ hc => hc.sys) ha hmax hq

/-- a packet in its place is taken by the session -/
theorem inPlace_taken {o : Options} {tr post : List Obs} {p : Packet} {s : Sys} (h : IsTraceWith o (tr ++ .read p :: post))
    (hrun : isRunning tr = true) (hg : ¬ ClientsGone tr) (hp : InPlace o.cleanStart tr p) (hk : ∃ b, Readable p b)
    (ha : s.alive = true) (h1 : p ≠ .pingResp) (h2 : ∀ d, p ≠ .disconnect d) :
    [.delivered p] <+: post ∨ ∃ s' reply shown, s.step (.receive p) = some (s', .received p reply shown) := by
  have ack : ∀ {id}, ackId p = some id → Awaits o.cleanStart tr p → [.delivered p] <+: post := fun hid hw =>
    (C88_recognised_partial h rfl hrun hid).1 hw hg
  cases p with
  | publish q =>
    right
    obtain ⟨b, ⟨-, hb⟩, -⟩ := hk
    have hq : q.pkid.isSome ↔ q.qos ≠ .atMostOnce := by
      obtain ⟨_, _, _, _, _, _, _, _, _, _, _, _, h, _⟩ := hb
      exact h
    rw [Sys.step_receive ha]
    simp only [Handler.incomingState, Handler.incomingPublish]
    cases e : q.qos <;> cases e' : q.pkid <;> simp [e, e'] at hq ⊢
  | pubRel a =>
    right
    rw [Sys.step_receive ha]
    exact ⟨_, _, _, rfl⟩
  | pingResp => exact absurd rfl h1
  | disconnect d => exact absurd rfl (h2 d)
  | pubAck a => exact .inl (ack rfl hp)
  | pubRec a => exact .inl (ack rfl hp)
  | pubComp a => exact .inl (ack rfl hp)
  | subAck a => exact .inl (ack rfl hp)
  | unsubAck a => exact .inl (ack rfl hp)
  | _ => exact absurd hp (by simp [InPlace, Awaits])

/-! ## tokio -/

theorem Tokio.onPacket_calm {s s' : Tokio} {o : Options} {tr obs : List Obs} {p : Packet} {io : Bool} {T : Times} {e : End}
    (htr : IsTraceWith o (tr ++ obs)) (hrun : isRunning tr = true) (hg : ¬ ClientsGone tr) (ha : s.sys.alive = true)
    (hp : InPlace o.cleanStart tr p) (hk : ∃ b, Readable p b) (h : s.onPacket p io T = some (s', obs)) (he : .ended e ∈ obs) :
    Expected e := by
  have key : p ≠ .pingResp → (∀ d, p ≠ .disconnect d) → ∀ post, obs = .read p :: post →
      [.delivered p] <+: post ∨ ∃ s' reply shown, s.sys.step (.receive p) = some (s', .received p reply shown) := by
    rintro h1 h2 post rfl
    exact inPlace_taken htr hrun hg hp hk ha h1 h2
  simp only [onPacket, finish] at h
  split at h
  · cases h; simp at he
  · cases h
    simp at he
    subst he; trivial
  · rename_i n1 n2
    have key := key (fun e => n1 e) (fun d e => n2 d e)
    split at h
    · rename_i sys q reply shown hs
      split at h
      · cases h
        cases shown <;> simp at he
      · rename_i r
        split at h
        · cases h
          cases shown <;> simp at he
        · rename_i er hw
          cases h
          have : er = .io := (answer_closed sendable_closed (Sys.step_answer (received_self hs)) _ rfl).tokio_writes hw
          subst this
          cases shown <;> simp at he <;> subst he <;> trivial
    · rename_i hs
      cases h
      rcases key _ rfl with h | ⟨_, _, _, h⟩
      · simp at h
      · rw [h] at hs; cases hs
    · rename_i hs
      cases h
      rcases key _ rfl with h | ⟨_, _, _, h⟩
      · simp at h
      · rw [h] at hs; cases hs
    · cases h

theorem Tokio.onOutgoing_calm {s s' : Tokio} {obs : List Obs} {io : Bool} {T : Times} {e : End}
    (hc : s.sys.pool.closed = false) (hsend : ∀ p ∈ s.sys.queue, Sendable p)
    (hw : ∀ p rest, s.sys.queue = p :: rest → ∃ s', s.sys.step (.write true) = some (s', .written p))
    (h : s.onOutgoing io T = some (s', obs)) (he : .ended e ∈ obs) : Expected e := by
  simp only [onOutgoing, finish] at h
  split at h
  · rw [hc] at h; cases h
  · rename_i p rest hq
    obtain ⟨s1, hs1⟩ := hw p rest hq
    split at h
    · rename_i er hwr
      split at h
      · cases h
        have : er = .io := (hsend p (by simp [hq])).tokio_writes hwr
        subst this
        simp at he; subst he; trivial
      · cases h
    · rw [hs1] at h
      simp only at h
      split at h
      · cases h
        simp at he; subst he; trivial
      · cases h
        simp at he

theorem Tokio.onTimer_calm {s s' : Tokio} {obs : List Obs} {a : Option Nat} {io : Bool} {T : Times} {e : End}
    (h : s.onTimer a io T = some (s', obs)) (he : .ended e ∈ obs) : Expected e := by
  simp only [onTimer, finish] at h
  split at h
  · split at h
    · split at h
      · split at h
        · cases h; simp at he
        · rename_i er hw
          cases h
          have : er = .io := sendable_closed.pingReq.tokio_writes hw
          subst this
          simp at he; subst he; trivial
      · cases h
    · split at h
      · cases h
        simp at he; subst he; trivial
      · rename_i er hw
        cases h
        have : er = .io := sendable_closed.timeout.tokio_writes hw
        subst this
        simp at he; subst he; trivial
  · cases h

theorem VStep.ended_running {fl v o w} {e : End} (h : VStep fl v o w) (he : .ended e ∈ o) :
    v.running = true ∨ e = .error .noNetwork := by
  cases h
  case connectFailed ho => rcases ho with rfl | ⟨_, _, _, rfl⟩ <;> simp at he
  case noNetwork => simp at he; exact .inr he
  case established => simp [wrotes] at he
  case establishFail => simp [wrotes] at he
  all_goals first
    | exact .inl (View.Ready.running ‹_›)
    | (simp at he; done)

theorem tokio_calm {clientId : Str} {calls : List Setter} {t : Nat} {ops : List TokioOp} {op : TokioOp} {s' : Tokio}
    {obs : List Obs} {e : End} (h : (tokio (Options.build clientId calls) t ops).step op = some (s', obs)) (he : .ended e ∈ obs)
    (hu : UsedWell (Options.build clientId calls) (tokioTrace (Options.build clientId calls) t ops))
    (hsrv : ∀ p, .read p ∈ obs →
      InPlace (Options.build clientId calls).cleanStart (tokioTrace (Options.build clientId calls) t ops) p)
    (h0 : (tokioRx (Options.build clientId calls) t ops).taken = 0)
    (hb : ∃ qs sent, ListSays Readable qs sent ∧ (tokioRx (Options.build clientId calls) t ops).bytes <+: sent) : Expected e := by
  have hleg : LegalSys (Options.build clientId calls) (tokio (Options.build clientId calls) t ops).sys :=
    (Tokio.vrun (Options.build clientId calls) t ops).legal hu.requests
  generalize Options.build clientId calls = o at *
  have hv := Tokio.vrun o t ops
  have htr : IsTraceWith o (tokioTrace o t ops ++ obs) := .tokio t (ops ++ [op]) (tokio_snoc h).2.symm
  have hcl : (tokio o t ops).sys.pool.closed = false := by
    cases e : (tokio o t ops).sys.pool.closed with
    | false => rfl
    | true => exact absurd (hv.closed.1 e) hu.kept
  have hrun : (tokio o t ops).run.isSome = true → isRunning (tokioTrace o t ops) = true := fun hr => hv.up.2 ▸ hr
  cases op with
  | turn b lost io T =>
    have hrx := Tokio.rxed o t ops h0
    obtain ⟨rest, hst, hnet⟩ := hrx
    obtain ⟨qs, sent, hs, hb⟩ := hb
    have hopen := open_stream StreamPacket.more StreamPacket.fn StreamPacket.nil (fun _ _ h => (readable_reads h).2) hst hs hb
    have hw : ∀ p rest, (tokio o t ops).sys.alive = true → (tokio o t ops).sys.queue = p :: rest →
        ∃ s', (tokio o t ops).sys.step (.write true) = some (s', .written p) := fun p rest ha hq =>
      have ⟨s', h1, _⟩ := head_written hv ha hq (hv.not_beyond ha hu.maxima hq)
      ⟨s', h1⟩
    have hsend : ∀ p ∈ (tokio o t ops).sys.queue, Sendable p := fun p hp => hleg.held.waiting p (.inr hp)
    simp only [Tokio.step] at h
    generalize tokio o t ops = s at *
    obtain ⟨sys, options, lastAction, perform, network, run, now⟩ := s
    simp only [Tokio.turn] at h
    split at h
    · rename_i await c
      split at h
      · rename_i hok
        simp only [Bool.and_eq_true] at hok
        have ha := hok.2
        split at h
        · simp only [Tokio.onRead] at h
          rcases hnet with hnet | ⟨eof, hnet⟩
          · cases hnet
          · cases hnet
            split at h
            · rename_i p r hread
              rcases hopen with rfl | ⟨-, hopen⟩
              · exact absurd hread (StreamPacket.nil p r)
              · exact Tokio.onPacket_calm htr (hrun rfl) hu.kept ha (hsrv p (Tokio.onPacket_read h)) (hopen p r hread) h he
            · rename_i hread
              rcases hopen with rfl | ⟨hopen, -⟩
              · cases hread
              · exact absurd (hopeless_stream hread) hopen
            · split at h
              · cases h
                simp at he; subst he; trivial
              · cases h
            · rename_i er n1 n2 hread
              have := Packet.asyncRead_safe _ _ hread
              cases er with
              | de e => exact absurd rfl (n1 e)
              | eof => exact absurd rfl n2
              | panic => exact absurd rfl this.1
              | fuel => exact absurd rfl this.2
        · cases h
          simp at he; subst he; trivial
        · split at h
          · exact Tokio.onOutgoing_calm (by exact hcl) (by exact hsend) (by exact fun p rest hq => hw p rest ha hq) h he
          · cases h
        · split at h
          · exact Tokio.onTimer_calm h he
          · cases h
      · cases h
    · cases h
  | connect i =>
    rcases (Tokio.step_vstep h).ended_running he with hr | rfl
    · have hr : (tokio o t ops).run.isSome = true := hr
      simp only [Tokio.step, Tokio.connect] at h
      split at h
      · rename_i hg
        simp at hg
        rw [hg.2] at hr
        cases hr
      · cases h
    · trivial
  | _ =>
    simp only [Tokio.step] at h
    repeat' split at h
    all_goals first
      | (cases h; done)
      | (cases h; simp at he; done)
      | (cases h; simp at he; subst he; trivial)

/-! ## smol -/

theorem Smol.flush_calm {s s' : Smol} {obs o : List Obs} {io : Bool} {T : Times} {e : End} (hs : ∀ p ∈ s.outgoing, Sendable p)
    (hobs : .ended e ∉ obs) (h : s.flushOutgoing obs io T = (s', o)) (he : .ended e ∈ o) : Expected e := by
  simp only [flushOutgoing, finish] at h
  split at h
  · cases h
    simp at he
    exact absurd he hobs
  · rename_i er hw
    cases h
    have : er = .io := smol_writes_all hs hw
    subst this
    simp at he
    rcases he with he | rfl
    · exact absurd he hobs
    · trivial

theorem Smol.onPacket_calm {s s' : Smol} {o : Options} {tr obs : List Obs} {p : Packet} {io : Bool} {T : Times} {e : End}
    (htr : IsTraceWith o (tr ++ obs)) (hrun : isRunning tr = true) (hg : ¬ ClientsGone tr) (ha : s.sys.alive = true)
    (hout : s.outgoing = []) (hp : InPlace o.cleanStart tr p) (hk : ∃ b, Readable p b) (h : s.onPacket p io T = some (s', obs))
    (he : .ended e ∈ obs) : Expected e := by
  have key : p ≠ .pingResp → (∀ d, p ≠ .disconnect d) → ∀ post, obs = .read p :: post →
      [.delivered p] <+: post ∨ ∃ s' reply shown, s.sys.step (.receive p) = some (s', .received p reply shown) := by
    rintro h1 h2 post rfl
    exact inPlace_taken htr hrun hg hp hk ha h1 h2
  simp only [onPacket] at h
  split at h
  · exact Smol.flush_calm (by simp [hout]) (by simp) (Option.some.inj h) he
  · cases h
    simp at he
    subst he; trivial
  · rename_i n1 n2
    have key := key (fun e => n1 e) (fun d e => n2 d e)
    split at h
    · rename_i sys q reply shown hs
      refine Smol.flush_calm ?_ ?_ (Option.some.inj h) he
      · intro x hx
        simp [hout] at hx
        exact answer_closed sendable_closed (Sys.step_answer (received_self hs)) _ hx
      · cases shown <;> simp
    · rename_i hs
      cases h
      rcases key _ rfl with h | ⟨_, _, _, h⟩
      · simp at h
      · rw [h] at hs; cases hs
    · rename_i hs
      cases h
      rcases key _ rfl with h | ⟨_, _, _, h⟩
      · simp at h
      · rw [h] at hs; cases hs
    · cases h

theorem Smol.onOutgoing_calm {s s' : Smol} {obs : List Obs} {io : Bool} {T : Times} {e : End}
    (hc : s.sys.pool.closed = false) (hsend : ∀ p ∈ s.sys.queue, Sendable p)
    (hw : ∀ p rest, s.sys.queue = p :: rest → ∃ s', s.sys.step (.write true) = some (s', .written p))
    (h : s.onOutgoing io T = some (s', obs)) (he : .ended e ∈ obs) : Expected e := by
  simp only [onOutgoing, finish] at h
  split at h
  · rw [hc] at h; cases h
  · rename_i p rest hq
    obtain ⟨s1, hs1⟩ := hw p rest hq
    split at h
    · rename_i er hwr
      split at h
      · cases h
        have : er = .io := (hsend p (by simp [hq])).smol_writes hwr
        subst this
        simp at he; subst he; trivial
      · cases h
    · rw [hs1] at h
      simp only at h
      split at h
      · cases h
        simp at he; subst he; trivial
      · cases h
        simp at he

theorem Smol.onTimer_calm {s s' : Smol} {obs : List Obs} {io : Bool} {T : Times} {e : End}
    (h : s.onTimer io T = some (s', obs)) (he : .ended e ∈ obs) : Expected e := by
  simp only [onTimer, finish] at h
  split at h
  · split at h
    · split at h
      · cases h; simp at he
      · rename_i er hw
        cases h
        have : er = .io := sendable_closed.pingReq.smol_writes hw
        subst this
        simp at he; subst he; trivial
    · split at h
      · cases h
        simp at he; subst he; trivial
      · rename_i er hw
        cases h
        have : er = .io := sendable_closed.timeout.smol_writes hw
        subst this
        simp at he; subst he; trivial
  · cases h

theorem Smol.flush_checks (s : Smol) (obs : List Obs) (io : Bool) (T : Times) :
    (s.flushOutgoing obs io T).1.checks = s.checks := by
  simp only [flushOutgoing]
  split <;> rfl

theorem Smol.onPacket_checks {s s' : Smol} {p : Packet} {io : Bool} {T : Times} {obs : List Obs}
    (h : s.onPacket p io T = some (s', obs)) : s'.checks = s.checks := by
  simp only [onPacket] at h
  repeat' split at h
  all_goals first
    | (cases h; done)
    | (have h := congrArg Prod.fst (Option.some.inj h); subst h; exact Smol.flush_checks _ _ _ _)
    | (cases h; rfl)

theorem Smol.step_checks {s s' : Smol} {op : SmolOp} {obs : List Obs} (h : s.step op = some (s', obs)) : s'.checks = s.checks := by
  cases op with
  | turn b io T =>
    simp only [step, turn] at h
    split at h
    · split at h
      · split at h
        · simp only [onRead] at h
          repeat' split at h
          all_goals first
            | (cases h; done)
            | (cases h; rfl)
            | (have := Smol.onPacket_checks h; exact this)
        · cases h; rfl
        · simp only [onOutgoing] at h
          repeat' split at h
          all_goals (cases h; try rfl)
        · simp only [onTimer] at h
          repeat' split at h
          all_goals (cases h; try rfl)
      · cases h
    · cases h
  | connect i =>
    simp only [step, connect, established, noteConnAck] at h
    repeat' split at h
    all_goals (cases h; try rfl)
  | _ =>
    simp only [step] at h
    repeat' split at h
    all_goals (cases h; try rfl)

theorem smol_checks (c : Bool) (o : Options) (t : Nat) (ops : List SmolOp) : (smol c o t ops).checks = c :=
  history_induct Smol.step (fun s _ => s.checks = c) (s := Smol.new c o t) rfl (fun _ _ _ _ _ h hs => (Smol.step_checks hs).trans h) ops

theorem smol_calm {clientId : Str} {calls : List Setter} {t : Nat} {ops : List SmolOp} {op : SmolOp} {s' : Smol}
    {obs : List Obs} {e : End} (h : (smol false (Options.build clientId calls) t ops).step op = some (s', obs))
    (he : .ended e ∈ obs)
    (hu : UsedWell (Options.build clientId calls) (smolTrace false (Options.build clientId calls) t ops))
    (hsrv : ∀ p, .read p ∈ obs →
      InPlace (Options.build clientId calls).cleanStart (smolTrace false (Options.build clientId calls) t ops) p)
    (hb : ∃ qs sent, ListSays Readable qs sent ∧
      (smolRx false (Options.build clientId calls) t (ops ++ [op])).bytes <+: sent) : Expected e := by
  have hleg : LegalSys (Options.build clientId calls) (smol false (Options.build clientId calls) t ops).sys :=
    (Smol.vrun false (Options.build clientId calls) t ops).legal hu.requests
  generalize Options.build clientId calls = o at *
  have hv := Smol.vrun false o t ops
  have hgood : (smol false o t ops).Good := (Smol.vrun_good false o t ops).2
  have htr : IsTraceWith o (smolTrace false o t ops ++ obs) := .smol false t (ops ++ [op]) (smol_snoc h).2.symm
  have hcl : (smol false o t ops).sys.pool.closed = false := by
    cases e : (smol false o t ops).sys.pool.closed with
    | false => rfl
    | true => exact absurd (hv.closed.1 e) hu.kept
  have hrun : (smol false o t ops).running = true → isRunning (smolTrace false o t ops) = true := fun hr => hv.up.2 ▸ hr
  have hck : (smol false o t ops).checks = false := smol_checks false o t ops
  cases op with
  | turn b io T =>
    obtain ⟨rest, hst, hnet⟩ := Smol.rxed false o t ops
    have hw : ∀ p rest, (smol false o t ops).sys.alive = true → (smol false o t ops).sys.queue = p :: rest →
        ∃ s', (smol false o t ops).sys.step (.write true) = some (s', .written p) := fun p rest ha hq =>
      have ⟨s', h1, _⟩ := head_written hv ha hq (hv.not_beyond ha hu.maxima hq)
      ⟨s', h1⟩
    have hsend : ∀ p ∈ (smol false o t ops).sys.queue, Sendable p := fun p hp => hleg.held.waiting p (.inr hp)
    have hrx : ∀ chunk, b = .read chunk → (smolRx false o t (ops ++ [.turn b io T])).bytes = (smolRx false o t ops).bytes ++ chunk := by
      rintro chunk rfl
      simp only [smolRx, log_append, List.foldl_append, log]
      have h' : Smol.step (history Smol.step (Smol.new false o t) ops).1 (.turn (.read chunk) io T) = some (s', obs) := h
      rw [h']
      rfl
    simp only [Smol.step] at h
    generalize smol false o t ops = s at *
    obtain ⟨buffer, hn⟩ : ∃ buffer, s.network = some buffer := by
      cases hn : s.network with
      | none => simp [Smol.turn, hn] at h
      | some b => exact ⟨b, rfl⟩
    simp only [Smol.turn, hn] at h
    split at h
    · rename_i hok
      simp only [Bool.and_eq_true] at hok
      have ha := hok.1.2
      split at h
      · rename_i chunk
        simp only [Smol.onRead] at h
        split at h
        · cases h
          simp at he; subst he; trivial
        · rename_i hne
          split at h
          · cases h
          · rcases hnet with hnet | hnet
            · rw [hnet] at hn; cases hn
            · rw [hnet] at hn
              cases hn
              obtain ⟨qs, sent, hs, hb⟩ := hb
              rw [hrx chunk rfl] at hb
              have hopen := open_stream BufferPacket.more BufferPacket.fn BufferPacket.nil (fun _ _ h => (readable_reads h).1)
                (hst.more BufferPacket.more (m := chunk)) hs hb
              have hopen := hopen.resolve_left (by simp [hne])
              rw [hck] at h
              split at h
              · rename_i p r hparse
                exact Smol.onPacket_calm htr (hrun hok.2) hu.kept (by exact ha) (by exact hgood.outgoing) (hsrv p (Smol.onPacket_read h))
                  (hopen.2 p r (SmolStream.parse_packet hparse)) h he
              · cases h
                cases he
              · rename_i hparse
                exact absurd (SmolStream.parse_failed hparse) hopen.1
              · rename_i hparse
                exact absurd (SmolStream.parse_panic hparse) hopen.1
      · cases h
        simp at he; subst he; trivial
      · exact Smol.onOutgoing_calm (by exact hcl) (by exact hsend) (by exact fun p rest hq => hw p rest ha hq) h he
      · exact Smol.onTimer_calm h he
    · cases h
  | connect i =>
    rcases (Smol.step_vstep hgood h).1.ended_running he with hr | rfl
    · have hr : (smol false o t ops).running = true := hr
      simp only [Smol.step, Smol.connect] at h
      split at h
      · rename_i hg
        simp at hg
        rw [hg.2] at hr
        cases hr
      · cases h
    · trivial
  | _ =>
    simp only [Smol.step] at h
    repeat' split at h
    all_goals first
      | (cases h; done)
      | (cases h; simp at he; done)
      | (cases h; simp at he; subst he; trivial)

end Mqrstt
