import Verif.Proof.Interrupt
import Verif.Proof.Verdict
import Verif.Proof.Reconnect
/-!
# Connecting after futures have been dropped (C109)
-/

namespace Mqrstt
namespace VerdictDrop
open Mqrstt.Spec Mqrstt.Props _root_.Spec

/-- the session is as it was, or it has done something of the network's -/
def Kept (s s' : Sys) : Prop :=
  s' = s ∨ (∃ p q r b, s.step (.receive p) = some (s', .received q r b)) ∨ (∃ e, s.step (.write false) = some (s', e)) ∨
    ∃ c c' ps, s.step (.connAck c) = some (s', .connected c' ps)

theorem Kept.alive {s s' : Sys} (h : Kept s s') (ha : s.alive = true) : s'.alive = true := by
  rcases h with rfl | ⟨p, q, r, b, h⟩ | ⟨e, h⟩ | ⟨c, c', ps, h⟩
  · exact ha
  · exact Sys.step_stays_alive h ha (by simp) (by simp)
  · obtain ⟨p, rest, hq, ⟨hf, -⟩ | ⟨-, he⟩⟩ := Sys.step_write_event h
    · cases hf
    · exact Sys.step_stays_alive h ha (by rw [he]; simp) (by rw [he]; simp)
  · exact Sys.step_stays_alive h ha (by simp) (by simp)

theorem Kept.closed {s s' : Sys} (h : Kept s s') (hc : s'.pool.closed = true) : s.pool.closed = true := by
  rcases h with rfl | ⟨p, q, r, b, h⟩ | ⟨e, h⟩ | ⟨c, c', ps, h⟩
  · exact hc
  · simpa using (Sys.step_closed h).1 hc
  · obtain ⟨p, rest, hq, ⟨hf, -⟩ | ⟨-, he⟩⟩ := Sys.step_write_event h
    · cases hf
    · simpa [he] using (Sys.step_closed h).1 hc
  · simpa using (Sys.step_closed h).1 hc

/-! ## tokio -/

theorem tk_drop {s s' : TokioWire} {b : TokioBranch} {d : DropAt} {lost : Nat} {T : Times} {ob : List Obs}
    (h : s.drop b d lost T = some (s', ob)) : Kept s.net.sys s'.net.sys := by
  unfold TokioWire.drop TokioWire.dropRead TokioWire.dropOutgoing TokioWire.dropTimer at h
  simp only [TokioWire.cut] at h
  repeat' split at h
  all_goals first
    | (cases h; done)
    | (cases h; exact .inl rfl)
    | (cases h; exact .inr (.inl ⟨_, _, _, _, by assumption⟩))
    | (cases h; exact .inr (.inr (.inl ⟨_, by assumption⟩)))

theorem tk_dropConnect {s s' : Tokio} {i : TokioConnect} {d : ConnectDropAt} {ob : List Obs}
    (h : s.dropConnect i d = some (s', ob)) : Kept s.sys s'.sys := by
  have hn : ∀ (c : ConnAck) (t : Tokio), (t.noteConnAck c i.times.fire).sys = t.sys := fun _ _ => rfl
  unfold Tokio.dropConnect at h
  simp only [hn] at h
  repeat' split at h
  all_goals first
    | (cases h; done)
    | (cases h; exact .inl rfl)
    | (cases h; exact .inr (.inr (.inr ⟨_, _, _, by assumption⟩)))

theorem tokio_kept (o : Options) (t : Nat) (ops : List TokioWireOp) :
    (Usable ((TokioWire.new o t).runOps ops).2 → ((TokioWire.new o t).runOps ops).1.net.sys.alive = true) ∧
    (((TokioWire.new o t).runOps ops).1.net.sys.pool.closed = true → ClientsGone ((TokioWire.new o t).runOps ops).2) ∧
    Tokio.sameOptions o ((TokioWire.new o t).runOps ops).1.net.options := by
  refine history_induct TokioWire.step (fun s tr => (Usable tr → s.net.sys.alive = true) ∧
    (s.net.sys.pool.closed = true → ClientsGone tr) ∧ Tokio.sameOptions o s.net.options) (s := TokioWire.new o t)
    ⟨fun _ => rfl, fun h => Bool.noConfusion (show false = true from h), .refl _⟩ ?_ ops
  rintro s tr op s' ob ⟨h1, h2, h3⟩ hs
  have left : ∀ x, x ∈ tr → x ∈ tr ++ ob := fun _ => List.mem_append_left _
  cases op with
  | op op =>
    simp only [TokioWire.step] at hs
    split at hs
    · rename_i hn
      cases hs
      have hv := Tokio.step_vstep hn
      refine ⟨fun hu => hv.usable (fun x hx => hu x (List.mem_append_right _ hx)) (h1 fun x hx => hu x (left x hx)), fun hc => ?_, ?_⟩
      · rcases hv.closed.1 hc with hc | hc
        · exact left _ (h2 hc)
        · exact List.mem_append_right _ hc
      · obtain ⟨k, hk⟩ := h3
        obtain ⟨k', hk'⟩ := Tokio.step_options hn
        exact ⟨k', by rw [hk', hk]⟩
    · cases hs
  | drop b d lost T =>
    have hs : s.drop b d lost T = some (s', ob) := hs
    have hk := tk_drop hs
    exact ⟨fun hu => hk.alive (h1 fun x hx => hu x (left x hx)), fun hc => left _ (h2 (hk.closed hc)),
      (TokioWire.drop_facts hs).options ▸ h3⟩
  | dropConnect i d =>
    obtain ⟨i', obs', -, hn', -⟩ := TokioWire.dropConnect_failed hs
    simp only [TokioWire.step] at hs
    split at hs
    · rename_i hn
      cases hs
      have hk := tk_dropConnect hn
      refine ⟨fun hu => hk.alive (h1 fun x hx => hu x (left x hx)), fun hc => left _ (h2 (hk.closed hc)), ?_⟩
      obtain ⟨k, hk⟩ := h3
      obtain ⟨k', hk'⟩ := Tokio.step_options hn'
      exact ⟨k', by rw [hk', hk]⟩
    · cases hs

theorem tokio_takes (o : Options) (t : Nat) (ops : List TokioWireOp) (hu : Usable ((TokioWire.new o t).runOps ops).2)
    (hg : ¬ ClientsGone ((TokioWire.new o t).runOps ops).2) {c : ConnAck} (hc : c.reason = .success) :
    ∃ s' ps, ((TokioWire.new o t).runOps ops).1.net.sys.step (.connAck c) = some (s', .connected c ps) := by
  obtain ⟨⟨sops, hi⟩, -⟩ := tokio_interrupted o t ops
  obtain ⟨h1, h2, -⟩ := tokio_kept o t ops
  have ha := h1 hu
  have hcl : ((TokioWire.new o t).runOps ops).1.net.sys.pool.closed = false := by
    cases e : ((TokioWire.new o t).runOps ops).1.net.sys.pool.closed with
    | false => rfl
    | true => exact absurd (h2 e) hg
  rw [hi.sys] at ha hcl ⊢
  exact (inv o.config sops).connAck_ok ha hcl hc

/-! ## smol -/

theorem sm_drop {s s' : SmolWire} {b : SmolBranch} {d : DropAt} {T : Times} {ob : List Obs}
    (h : s.drop b d T = some (s', ob)) : Kept s.net.sys s'.net.sys := by
  unfold SmolWire.drop SmolWire.dropRead SmolWire.dropOutgoing SmolWire.dropTimer at h
  simp only [SmolWire.cut] at h
  repeat' split at h
  all_goals first
    | (cases h; done)
    | (cases h; exact .inl rfl)
    | (cases h; exact .inr (.inl ⟨_, _, _, _, by assumption⟩))
    | (cases h; exact .inr (.inr (.inl ⟨_, by assumption⟩)))

theorem sm_dropConnect {s s' : Smol} {i : SmolConnect} {d : ConnectDropAt} {ob : List Obs}
    (h : s.dropConnect i d = some (s', ob)) : Kept s.sys s'.sys := by
  have hn : ∀ (c : ConnAck) (t : Smol), (t.noteConnAck c i.times.fire).sys = t.sys := fun _ _ => rfl
  unfold Smol.dropConnect at h
  simp only [hn] at h
  repeat' split at h
  all_goals first
    | (cases h; done)
    | (cases h; exact .inl rfl)
    | (cases h; exact .inr (.inr (.inr ⟨_, _, _, by assumption⟩)))

theorem smol_kept (checks : Bool) (o : Options) (t : Nat) (ops : List SmolWireOp) :
    (Usable ((SmolWire.new checks o t).runOps ops).2 → ((SmolWire.new checks o t).runOps ops).1.net.sys.alive = true) ∧
    (((SmolWire.new checks o t).runOps ops).1.net.sys.pool.closed = true → ClientsGone ((SmolWire.new checks o t).runOps ops).2) := by
  have := history_induct SmolWire.step (fun s tr => (Usable tr → s.net.sys.alive = true) ∧
    (s.net.sys.pool.closed = true → ClientsGone tr) ∧ s.net.Good) (s := SmolWire.new checks o t)
    ⟨fun _ => rfl, fun h => Bool.noConfusion (show false = true from h), rfl, by simp [SmolWire.new, Smol.new]⟩ ?_ ops
  · exact ⟨this.1, this.2.1⟩
  rintro s tr op s' ob ⟨h1, h2, h3⟩ hs
  have left : ∀ x, x ∈ tr → x ∈ tr ++ ob := fun _ => List.mem_append_left _
  cases op with
  | op op =>
    simp only [SmolWire.step] at hs
    split at hs
    · rename_i hn
      cases hs
      obtain ⟨hv, hg'⟩ := Smol.step_vstep h3 hn
      refine ⟨fun hu => hv.usable (fun x hx => hu x (List.mem_append_right _ hx)) (h1 fun x hx => hu x (left x hx)), fun hc => ?_, hg'⟩
      rcases hv.closed.1 hc with hc | hc
      · exact left _ (h2 hc)
      · exact List.mem_append_right _ hc
    · cases hs
  | drop b d T =>
    have hs : s.drop b d T = some (s', ob) := hs
    have hk := sm_drop hs
    exact ⟨fun hu => hk.alive (h1 fun x hx => hu x (left x hx)), fun hc => left _ (h2 (hk.closed hc)),
      (SmolWire.drop_facts hs).good h3⟩
  | dropConnect i d =>
    obtain ⟨i', obs', -, hn', -⟩ := SmolWire.dropConnect_failed hs
    have hg' := (Smol.step_vstep h3 hn').2
    simp only [SmolWire.step] at hs
    split at hs
    · rename_i hn
      cases hs
      have hk := sm_dropConnect hn
      exact ⟨fun hu => hk.alive (h1 fun x hx => hu x (left x hx)), fun hc => left _ (h2 (hk.closed hc)), hg'⟩
    · cases hs

theorem smol_takes (checks : Bool) (o : Options) (t : Nat) (ops : List SmolWireOp)
    (hu : Usable ((SmolWire.new checks o t).runOps ops).2)
    (hg : ¬ ClientsGone ((SmolWire.new checks o t).runOps ops).2) {c : ConnAck} (hc : c.reason = .success) :
    ∃ s' ps, ((SmolWire.new checks o t).runOps ops).1.net.sys.step (.connAck c) = some (s', .connected c ps) := by
  obtain ⟨⟨sops, hi⟩, -⟩ := smol_interrupted checks o t ops
  obtain ⟨h1, h2⟩ := smol_kept checks o t ops
  have ha := h1 hu
  have hcl : ((SmolWire.new checks o t).runOps ops).1.net.sys.pool.closed = false := by
    cases e : ((SmolWire.new checks o t).runOps ops).1.net.sys.pool.closed with
    | false => rfl
    | true => exact absurd (h2 e) hg
  rw [hi.sys] at ha hcl ⊢
  exact (inv o.config sops).connAck_ok ha hcl hc

/-! ## `connect` on a state -/

theorem tokio_announces (s : Tokio) (clientId : Str) (calls : List Setter) (i : TokioConnect) (c : ConnAck) (answer more : Bytes)
    (hopt : ∀ c, (Options.build clientId calls).connectPacket = .connect c → LegalConnect c)
    (hsame : Tokio.sameOptions (Options.build clientId calls) s.options) (ha : s.sys.alive = true) (hr : s.run = none)
    (htakes : ∀ c : ConnAck, c.reason = .success → ∃ s' ps, s.sys.step (.connAck c) = some (s', .connected c ps))
    (hclock : i.times.ok s.now = true) (hans : PacketSays (.connAck c) answer) (hb : i.bytes <+: answer ++ more) :
    Announces c (s.step (.connect i)) (verdict c i.connectOk (answer.isPrefixOf i.bytes) i.eof i.flushOk) := by
  have hread : Readable (.connAck c) answer := ⟨⟨trivial, hans⟩, id, id⟩
  have hw : ∀ io, Tokio.writePacket s.options.connectPacket io = if io then .ok () else .error .io := by
    intro io
    obtain ⟨-, bs, n, e, -⟩ := (sameOptions_fine hopt hsame rfl).written
    have e : s.options.connectPacket.asyncWrite = .ok (bs, n) := e
    simp [Tokio.writePacket, e]
  obtain ⟨cn, hcn⟩ : ∃ cn, s.options.connectPacket = .connect cn := ⟨_, rfl⟩
  simp only [Tokio.step, Tokio.connect, hclock, ha, hr, Option.isNone_none, Bool.and_self, if_true, hw, verdict]
  cases hio : i.connectOk with
  | false => exact ⟨_, _, rfl, rfl⟩
  | true =>
    simp only [if_true, Bool.true_eq_false, if_false]
    cases hp : answer.isPrefixOf i.bytes with
    | false =>
      have hn : ¬ answer <+: i.bytes := by
        rw [← List.isPrefixOf_iff_prefix, hp]
        simp
      obtain ⟨m, e, hm⟩ := part_of hb hn
      simp only [stream_part hread e hm, if_true]
      cases i.eof with
      | true => exact ⟨_, _, rfl, rfl⟩
      | false => exact rfl
    | true =>
      obtain ⟨rest, e⟩ := List.isPrefixOf_iff_prefix.1 hp
      have hrd : Packet.asyncRead i.bytes = .ok (.connAck c, rest) := by
        have := StreamPacket.more _ _ _ rest (readable_reads hread).2
        rw [e] at this
        exact this
      simp only [hrd, Bool.true_eq_false, if_false]
      by_cases hc : c.reason = .success
      · rw [if_pos hc, if_neg (show ¬ c.reason ≠ .success from fun h => h hc)]
        obtain ⟨sys, ps, hs⟩ : ∃ s' ps, s.sys.step (.connAck c) =
          some (s', .connected c ps) := htakes c hc
        simp only [Tokio.established, Tokio.noteConnAck, hs]
        cases i.flushOk with
        | false => exact ⟨_, _, rfl, List.getLast?_concat ..⟩
        | true =>
          refine ⟨_, _, rfl, cn, i.times.enter, i.times.fire, Tokio.writePackets i.resendOk i.times 0 ps, i.times.second,
            by simp [hcn], fun x hx => ?_⟩
          obtain ⟨p, rfl⟩ := Tokio.writePackets_wrote _ _ _ _ x hx
          exact ⟨_, _, _, rfl⟩
      · rw [if_neg hc, if_pos (show c.reason ≠ .success from hc)]
        exact ⟨_, _, rfl, by simp⟩

theorem smol_announces (s : Smol) (clientId : Str) (calls : List Setter) (i : SmolConnect) (c : ConnAck) (first : UInt8)
    (len body : Bytes) (hopt : ∀ c, (Options.build clientId calls).connectPacket = .connect c → LegalConnect c)
    (hsame : s.options = Options.build clientId calls) (ha : s.sys.alive = true) (hr : s.running = false)
    (hL : LegalSys (Options.build clientId calls) s.sys)
    (htakes : ∀ c : ConnAck, c.reason = .success → ∃ s' ps, s.sys.step (.connAck c) = some (s', .connected c ps))
    (hclock : i.times.ok s.now = true) (hv : IsVbi len) (hb : vbiValue len = body.length)
    (hans : PacketSays (.connAck c) (first :: (len ++ body))) :
    (Brings i.chunks (first :: (len ++ body)) → GoodSplit (1 + len.length) body.length i.chunks →
      Announces c (s.step (.connect i)) (verdict c i.connectOk true false i.resendOk)) ∧
    (∀ missing, Brings (i.chunks ++ [missing]) (first :: (len ++ body)) →
      GoodSplit (1 + len.length) body.length (i.chunks ++ [missing]) →
      Announces c (s.step (.connect i)) (verdict c i.connectOk false false i.resendOk) ∧
      Announces c (s.step (.connect { i with chunks := i.chunks ++ [[]] })) (verdict c i.connectOk false true i.resendOk)) := by
  have hread : Readable (.connAck c) (first :: (len ++ body)) := ⟨⟨trivial, hans⟩, id, id⟩
  have hw : ∀ io, Smol.writePacket s.options.connectPacket io = if io then .ok () else .error .io := by
    intro io
    rw [hsame]
    obtain ⟨⟨bs, e, -⟩, -⟩ := (sameOptions_fine hopt (.refl _) rfl).written
    have e : (Options.build clientId calls).connectPacket.write = .ok bs := e
    simp [Smol.writePacket, e]
  obtain ⟨cn, hcn⟩ : ∃ cn, s.options.connectPacket = .connect cn := ⟨_, rfl⟩
  have hi := SmolStream.Incoming.of_frame hv hb (readable_reads hread).1
  have hgood : ∀ chunks, Brings chunks (first :: (len ++ body)) → GoodSplit (1 + len.length) body.length chunks →
      ∃ extra, SmolStream.read s.checks (chunks.length + 1) [] chunks =
        .done (.connAck c, extra, []) := by
    intro chunks hbr hg
    obtain ⟨extra, he⟩ := hbr.whole
    exact ⟨extra, SmolStream.read_good _ hi (chunks.length + 1) [] chunks extra
      (Nat.le_refl _) hbr.nonempty (by simpa using he.symm) (fun n hn => SmolStream.cutsAt_nil (by simp) hbr.last hn)
      ((SmolStream.goodFrom_nil (by omega)).2 hg)⟩
  refine ⟨fun hbr hg => ?_, fun missing hbr hg => ?_⟩
  · obtain ⟨extra, hrd⟩ := hgood _ hbr hg
    simp only [Smol.step, Smol.connect, hclock, ha, hr, Bool.not_false, Bool.and_self, if_true, hw, verdict]
    cases hio : i.connectOk with
    | false => exact ⟨_, _, rfl, rfl⟩
    | true =>
      simp only [if_true, hrd, Bool.true_eq_false, if_false]
      by_cases hc : c.reason = .success
      · rw [if_pos hc, if_neg (show ¬ c.reason ≠ .success from fun h => h hc)]
        obtain ⟨sys, ps, hs⟩ : ∃ s' ps, s.sys.step (.connAck c) =
          some (s', .connected c ps) := htakes c hc
        simp only [Smol.established, Smol.noteConnAck, hs]
        cases hre : i.resendOk with
        | false =>
          cases hwa : Smol.writeAll ps false with
          | ok u =>
            exfalso
            exact smol_all_fails hwa
          | error e =>
            have : e = .io := smol_all_io (hL.resent hs) hwa
            subst this
            exact ⟨_, _, rfl, by simp⟩
        | true =>
          simp only [Smol.writeAll_ok (hL.resent hs)]
          refine ⟨_, _, rfl, cn, i.times.enter, i.times.fire, ps.map fun p => .wrote p i.times.fire i.times.first, i.times.second,
            by simp [hcn], fun x hx => ?_⟩
          obtain ⟨p, -, rfl⟩ := List.mem_map.1 hx
          exact ⟨_, _, _, rfl⟩
      · rw [if_neg hc, if_pos (show c.reason ≠ .success from hc)]
        exact ⟨_, _, rfl, by simp⟩
  · obtain ⟨extra, hrd⟩ := hgood _ hbr hg
    have hwait : SmolStream.read s.checks (i.chunks.length + 1) [] i.chunks =
        .waiting := by
      rcases SmolStream.read_more s.checks [missing] (i.chunks.length + 1) []
        i.chunks (Nat.le_refl _) ((i.chunks ++ [missing]).length + 1) (by simp) with h | h
      · exact h
      · exfalso
        rw [hrd] at h
        split at h
        · simp at h
        · rename_i hno
          rw [← h] at hno
          exact hno _ _ _ rfl
    constructor
    · simp only [Smol.step, Smol.connect, hclock, ha, hr, Bool.not_false, Bool.and_self, if_true, hw, verdict]
      cases hio : i.connectOk with
      | false => exact ⟨_, _, rfl, rfl⟩
      | true => simp [hwait, Announces]
    · have hcl := SmolStream.read_closed _ _ _ _ (Nat.le_refl _) ((i.chunks ++ [[]]).length + 1) (by simp) hwait
      simp only [Smol.step, Smol.connect, hclock, ha, hr, Bool.not_false, Bool.and_self, if_true, hw, verdict]
      cases hio : i.connectOk with
      | false => exact ⟨_, _, rfl, rfl⟩
      | true =>
        simp only [if_true, hcl, Bool.true_eq_false, if_false]
        exact ⟨_, _, rfl, by simp⟩

theorem tokio_wire_announces {s : TokioWire} {i : TokioConnect} {c : ConnAck} {v : Verdict}
    (h : Announces c (s.net.step (.connect i)) v) : Announces c (s.step (.op (.connect i))) v := by
  simp only [TokioWire.step]
  cases v with
  | waiting =>
    have h : s.net.step (.connect i) = none := h
    rw [h]
    exact rfl
  | _ =>
    obtain ⟨n, ob, e, hp⟩ := h
    rw [e]
    exact ⟨_, _, rfl, hp⟩

theorem smol_wire_announces {s : SmolWire} {i : SmolConnect} {c : ConnAck} {v : Verdict}
    (h : Announces c (s.net.step (.connect i)) v) : Announces c (s.step (.op (.connect i))) v := by
  simp only [SmolWire.step]
  cases v with
  | waiting =>
    have h : s.net.step (.connect i) = none := h
    rw [h]
    exact rfl
  | _ =>
    obtain ⟨n, ob, e, hp⟩ := h
    rw [e]
    exact ⟨_, _, rfl, hp⟩

end VerdictDrop
end Mqrstt
