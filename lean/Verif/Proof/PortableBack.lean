import Verif.Proof.Portable
/-! # tokio is simulated by smol, apart from the times (C111) -/

namespace Mqrstt
open Mqrstt.Spec _root_.Spec Mqrstt.Props

/-- a promising stream that begins with a packet begins with the bytes of a readable one -/
theorem promising_frame {b r : Bytes} {p : Packet} (hb : Promising b) (h : StreamPacket b p r) :
    ∃ f, Readable p f ∧ b = f ++ r := by
  obtain ⟨qs, sent, hs, m, e⟩ := hb
  cases hs with
  | nil =>
    rw [(List.append_eq_nil_iff.1 e).1] at h
    exact absurd h (StreamPacket.nil _ _)
  | @cons q qs a sent hq hs =>
    have h1 := StreamPacket.more _ _ _ sent (readable_reads hq).2
    rw [← e, List.nil_append] at h1
    obtain ⟨rfl, h2⟩ := StreamPacket.fn _ _ _ _ _ (StreamPacket.more _ _ _ m h) h1
    rw [← h2, ← List.append_assoc] at e
    exact ⟨a, hq, List.append_cancel_right e⟩

theorem promising_decodes {b : Bytes} {e : DeErr} (hb : Promising b) (h : Packet.asyncRead b = .error (.de e)) : False := by
  obtain ⟨qs, sent, hs, hb⟩ := hb
  rcases open_stream StreamPacket.more StreamPacket.fn StreamPacket.nil (fun _ _ h => (readable_reads h).2) (.nil b) hs hb with rfl | ⟨h1, -⟩
  · cases h
  · exact h1 (hopeless_stream h)

theorem promising_rest_stream {bs rest : Bytes} {ps : List Packet} (h : Stream StreamPacket bs ps rest) (hb : Promising bs) :
    Promising rest := by
  induction h with
  | nil => exact hb
  | @cons bs bs' rest p ps h _ ih =>
    apply ih
    obtain ⟨qs, sent, hs, m, e⟩ := hb
    cases hs with
    | nil =>
      rw [(List.append_eq_nil_iff.1 e).1] at h
      exact absurd h (StreamPacket.nil _ _)
    | @cons q qs b sent hq hs =>
      have h1 := StreamPacket.more _ _ _ sent (readable_reads hq).2
      rw [← e, List.nil_append] at h1
      obtain ⟨-, h2⟩ := StreamPacket.fn _ _ _ _ _ (StreamPacket.more _ _ _ m h) h1
      exact ⟨qs, sent, hs, m, h2⟩

/-- a part of a readable packet does not suffice -/
theorem parse_part {p : Packet} {f b m : Bytes} (h : Readable p f) (e : b ++ m = f) (hm : m ≠ []) :
    SmolStream.parse false b = .insufficient := by
  have hf := (readable_reads h).1
  cases hp : SmolStream.parse false b with
  | insufficient => rfl
  | packet q rest =>
    have h2 := BufferPacket.more _ _ _ m (SmolStream.parse_packet hp)
    rw [e] at h2
    exact absurd (List.append_eq_nil_iff.1 (BufferPacket.fn _ _ _ _ _ h2 hf).2).2 hm
  | failed er => exact absurd (by rw [e]; exact hf) (SmolStream.parse_failed hp m p [])
  | panic => exact absurd (by rw [e]; exact hf) (SmolStream.parse_panic hp m p [])

/-! ## the simulation -/

/-- the smol network in the place of the tokio network: everything before what tokio has not read has been read -/
def echo (z : Tokio) (la : Nat) (aw : Option Nat) (nw : Nat) : Smol :=
  ⟨false, z.sys, z.options, z.options.keepAlive, z.perform, la, aw, [], z.network.map fun _ => [], z.run.isSome, nw⟩

structure Echo (z : Tokio) (la : Nat) (aw : Option Nat) (nw : Nat) : Prop where
  past : la ≤ nw
  await : aw.isSome = (z.run.getD none).isSome
  on : aw.isSome = true → z.perform = true

/-- smol has read all but what tokio has still before it -/
structure Fed (z : Tokio) (rz rs : Rx) : Prop where
  bytes : rs.bytes <+: rz.bytes
  rest : ∀ c, z.network = some c → rz.bytes = rs.bytes ++ c.input

theorem Fed.keep {z z' : Tokio} {rz rz' rs rs' : Rx} (h : Fed z rz rs)
    (hz : ∀ c', z'.network = some c' → ∃ c, z.network = some c ∧ c.input = c'.input) (h1 : rz'.bytes = rz.bytes)
    (h2 : rs'.bytes = rs.bytes) : Fed z' rz' rs' := by
  refine ⟨by rw [h1, h2]; exact h.bytes, fun c' hc' => ?_⟩
  obtain ⟨c, hc, e⟩ := hz c' hc'
  rw [h1, h2, ← e]
  exact h.rest c hc

def Echoed (z : Tokio) (op : TokioOp) (z' : Tokio) (obs : List Obs) (la : Nat) (aw : Option Nat) (nw : Nat) : Prop :=
  ∃ ops obs' la' aw' nw', history Smol.step (echo z la aw nw) ops = (echo z' la' aw' nw', obs') ∧
    obs'.map untimed = obs.map untimed ∧ Echo z' la' aw' nw' ∧
    ∀ rz rs, Fed z rz rs → Fed z' (tokioRxStep rz (op, obs)) ((log Smol.step (echo z la aw nw) ops).foldl smolRxStep rs)

theorem echo_one {z z' : Tokio} {op : TokioOp} {obs : List Obs} {la : Nat} {aw : Option Nat} {nw : Nat} (sop : SmolOp) (obs' : List Obs)
    (la' : Nat) (aw' : Option Nat) (nw' : Nat) (h : (echo z la aw nw).step sop = some (echo z' la' aw' nw', obs'))
    (ho : obs'.map untimed = obs.map untimed) (hf : Echo z' la' aw' nw')
    (hr : ∀ rz rs, Fed z rz rs → Fed z' (tokioRxStep rz (op, obs)) (smolRxStep rs (sop, obs'))) : Echoed z op z' obs la aw nw :=
  ⟨[sop], obs', la', aw', nw', by simp [history, h], ho, hf, by simpa [log, h] using hr⟩

section
variable {z z' : Tokio} {la nw : Nat} {aw : Option Nat} {obs : List Obs}

theorem echo_client {op : Op} (hf : Echo z la aw nw) (h : z.step (.client op) = some (z', obs)) :
    Echoed z (.client op) z' obs la aw nw := by
  simp only [Tokio.step] at h
  split at h
  · rename_i hop
    split at h
    · rename_i sys e hs
      cases h
      refine echo_one (.client op) _ la aw nw ?_ rfl ⟨hf.1, hf.2, hf.3⟩ fun rz rs hr => hr.keep (fun c hc => ⟨c, hc, rfl⟩) rfl rfl
      simp only [Smol.step, hop, if_true, echo, hs]
    · cases h
  · cases h

theorem echo_drop (hf : Echo z la aw nw) (h : z.step .dropNetwork = some (z', obs)) : Echoed z .dropNetwork z' obs la aw nw := by
  simp only [Tokio.step] at h
  split at h
  · rename_i hr
    split at h
    · rename_i sys e hs
      cases h
      refine echo_one .dropNetwork _ la aw nw ?_ rfl ⟨hf.1, hf.2, hf.3⟩ fun rz rs hr => hr.keep (fun c hc => nomatch hc) rfl rfl
      have : z.run = none := by simpa using hr
      simp [Smol.step, echo, hs, this]
    · cases h
  · cases h

theorem echo_start (hf : Echo z la aw nw) (h : z.step .start = some (z', obs)) : Echoed z .start z' obs la aw nw := by
  simp only [Tokio.step] at h
  split at h
  · rename_i hr
    simp at hr
    have haw : aw = none := by have := hf.await; simpa [hr.1] using this
    subst haw
    split at h
    · rename_i hn
      cases h
      refine echo_one .start _ la none nw ?_ rfl hf fun rz rs hr => hr.keep (fun c hc => ⟨c, hc, rfl⟩) rfl rfl
      simp [Smol.step, echo, hr, hn]
    · rename_i hn
      cases h
      refine echo_one .start _ la none nw ?_ rfl ⟨hf.1, rfl, hf.3⟩ fun rz rs hr => hr.keep (fun c hc => ⟨c, hc, rfl⟩) rfl rfl
      simp [Smol.step, echo, hr, hn]
  · cases h

theorem echo_arrive {bs : Bytes} (hf : Echo z la aw nw) (h : z.step (.arrive bs) = some (z', obs)) :
    Echoed z (.arrive bs) z' obs la aw nw := by
  simp only [Tokio.step] at h
  split at h
  · rename_i c hn
    split at h
    · cases h
    · cases h
      refine ⟨[], [], la, aw, nw, by simp [history, echo, hn], rfl, ⟨hf.1, hf.2, hf.3⟩, fun rz rs hr => ⟨?_, ?_⟩⟩
      · exact hr.bytes.trans (List.prefix_append _ _)
      · intro c' hc'
        cases hc'
        show rz.bytes ++ bs = rs.bytes ++ (c.input ++ bs)
        rw [hr.rest c hn, List.append_assoc]
  · cases h

theorem echo_close (hf : Echo z la aw nw) (h : z.step .close = some (z', obs)) : Echoed z .close z' obs la aw nw := by
  simp only [Tokio.step] at h
  split at h
  · rename_i c hn
    cases h
    refine ⟨[], [], la, aw, nw, by simp [history, echo, hn], rfl, ⟨hf.1, hf.2, hf.3⟩, fun rz rs hr => hr.keep ?_ rfl rfl⟩
    intro c' hc'
    cases hc'
    exact ⟨c, hn, rfl⟩
  · cases h

/-! ### a packet is brought in pieces of at most 4096 bytes -/

/-- the smol network with `b` in its buffer -/
def holding (z : Tokio) (la : Nat) (aw : Option Nat) (nw : Nat) (b : Bytes) : Smol := { echo z la aw nw with network := some b }

theorem feed_one {p : Packet} {f b chunk m : Bytes} (hrun : z.run.isSome = true) (ha : z.sys.alive = true) (hf : Readable p f)
    (e : b ++ chunk ++ m = f) (hm : m ≠ []) (hc : chunk ≠ []) (hlen : chunk.length ≤ 4096) :
    (holding z la aw nw b).step (.turn (.read chunk) true (instant nw)) = some (holding z la aw nw (b ++ chunk), []) := by
  have hp := parse_part hf e hm
  have : ¬ chunk.length > 4096 := by omega
  simp only [Smol.step, Smol.turn, holding, echo, instant_ok, ha, hrun, Bool.and_self, if_true, Smol.onRead, if_neg hc, if_neg this, hp]
  rfl

theorem feed {p : Packet} {f : Bytes} (hrun : z.run.isSome = true) (ha : z.sys.alive = true) (hf : Readable p f) (n : Nat) :
    ∀ b m, b ++ m = f → m ≠ [] → m.length ≤ n →
    ∃ ops b' m', b' ++ m' = f ∧ m' ≠ [] ∧ m'.length ≤ 4096 ∧
      history Smol.step (holding z la aw nw b) ops = (holding z la aw nw b', []) ∧
      ∀ r, ((log Smol.step (holding z la aw nw b) ops).foldl smolRxStep r).bytes ++ m' = r.bytes ++ m := by
  induction n with
  | zero =>
    intro b m _ hm hl
    exact absurd (List.length_eq_zero_iff.1 (by omega)) hm
  | succ n ih =>
    intro b m e hm hl
    by_cases h : m.length ≤ 4096
    · exact ⟨[], b, m, e, hm, h, rfl, fun r => rfl⟩
    · have hd : m.drop 4096 ≠ [] := by
        intro hd
        have := congrArg List.length hd
        simp at this
        omega
      have ht : m.take 4096 ≠ [] := by
        intro ht
        have h' : (m.take 4096).length = 4096 := by rw [List.length_take]; omega
        rw [ht] at h'
        cases h'
      have e' : b ++ m.take 4096 ++ m.drop 4096 = f := by rw [List.append_assoc, List.take_append_drop, e]
      have hs := feed_one (la := la) (aw := aw) (nw := nw) hrun ha hf e' hd ht (by simp; omega)
      obtain ⟨ops, b', m', h1, h2, h3, h4, h5⟩ := ih _ _ e' hd (by simp; omega)
      refine ⟨.turn (.read (m.take 4096)) true (instant nw) :: ops, b', m', h1, h2, h3, by simp [history, hs, h4], fun r => ?_⟩
      simp only [log, hs, List.foldl_cons]
      rw [h5]
      simp [smolRxStep]

/-- the packet that tokio reads is brought to smol -/
theorem echo_read {c : TokioConn} {p : Packet} {f rest : Bytes} {lost : Nat} {io io' : Bool} {T : Times} {obs' : List Obs} {la' : Nat}
    {aw' : Option Nat} (hrun : z.run.isSome = true)
    (ha : z.sys.alive = true) (hn : z.network = some c) (hread : Readable p f) (hc : c.input = f ++ rest)
    (hp : Smol.onPacket (holding z la aw nw []) p io' (instant nw) = some (echo z' la' aw' nw, obs'))
    (ho : obs'.map untimed = obs.map untimed) (hf : Echo z' la' aw' nw)
    (hn' : ∀ c', z'.network = some c' → c'.input = rest) :
    Echoed z (.turn .read lost io T) z' obs la aw nw := by
  have hne : f ≠ [] := by
    rintro rfl
    exact StreamPacket.nil _ _ (readable_reads hread).2
  have h0 : echo z la aw nw = holding z la aw nw [] := by simp [holding, echo, hn]
  obtain ⟨ops, b', m', h1, h2, h3, h4, h5⟩ := feed (la := la) (aw := aw) (nw := nw) hrun ha hread f.length [] f rfl hne (Nat.le_refl _)
  have hs : (holding z la aw nw b').step (.turn (.read m') io' (instant nw)) = some (echo z' la' aw' nw, obs') := by
    have hparse : SmolStream.parse false (b' ++ m') = .packet p [] := by
      rw [h1]
      exact SmolStream.parse_of_packet (readable_reads hread).1
    have : ¬ m'.length > 4096 := by omega
    have hp' := hp
    simp only [holding, echo] at hp'
    simp only [Smol.step, Smol.turn, holding, echo, instant_ok, ha, hrun, Bool.and_self, if_true, Smol.onRead, if_neg h2, if_neg this,
      hparse]
    rw [hrun] at hp'
    exact hp'
  refine ⟨ops ++ [.turn (.read m') io' (instant nw)], obs', la', aw', nw, ?_, ho, hf, ?_⟩
  · rw [h0, history_append, h4]
    simp [history, hs]
  · intro rz rs hr
    have hlog : ((log Smol.step (echo z la aw nw) (ops ++ [.turn (.read m') io' (instant nw)])).foldl smolRxStep rs).bytes =
        rs.bytes ++ f := by
      rw [h0, log_append, List.foldl_append, h4]
      simp only [log, hs, List.foldl_cons, List.foldl_nil, smolRxStep]
      exact h5 rs
    have hz := hr.rest c hn
    rw [hc] at hz
    refine ⟨?_, ?_⟩
    · rw [hlog]
      show _ <+: rz.bytes
      rw [hz, ← List.append_assoc]
      exact List.prefix_append _ _
    · intro c' hc'
      rw [hlog, hn' c' hc', List.append_assoc]
      exact hz

theorem echo_turn {b : TokioBranch} {lost : Nat} {io : Bool} {T : Times} (h : z.step (.turn b lost io T) = some (z', obs)) :
    ∃ a c, z.run = some a ∧ z.network = some c ∧ z.sys.alive = true ∧
      (match (generalizing := false) b with
      | .read => { z with now := T.second }.onRead c io T
      | .readError => some ({ z with now := T.second }.finish [] (.error .io))
      | .outgoing =>
        if Tokio.canLose c lost then
          { z with now := T.second, network := some { c with input := c.input.drop lost } }.onOutgoing io T
        else none
      | .timer =>
        if Tokio.canLose c lost then
          { z with now := T.second, network := some { c with input := c.input.drop lost } }.onTimer a io T
        else none) = some (z', obs) := by
  obtain ⟨sys, options, perform, lastAction, network, run, now⟩ := z
  simp only [Tokio.step, Tokio.turn] at h
  split at h
  · rename_i a c
    split at h
    · rename_i hok
      simp at hok
      exact ⟨a, c, rfl, rfl, hok.2, h⟩
    · cases h
  · cases h

/-- `run` ends -/
theorem echo_finish {op : TokioOp} (sop : SmolOp) (sys : Sys) (o' : List Obs) (la' nw' : Nat) {o : List Obs} {e : End} {y : Tokio}
    (hz : some (y.finish o e) = some (z', obs))
    (h : (echo z la aw nw).step sop = some ({ echo z la aw nw with sys := sys, lastAction := la', now := nw' }.finish o' e))
    (ho : o'.map untimed = o.map untimed) (hla : la' ≤ nw') (hy : y.sys = sys ∧ y.options = z.options ∧ y.perform = z.perform)
    (hr : ∀ rz, (tokioRxStep rz (op, obs)).bytes = rz.bytes) (hr' : ∀ rs o, (smolRxStep rs (sop, o)).bytes = rs.bytes) :
    Echoed z op z' obs la aw nw := by
  cases hz
  refine echo_one sop (o' ++ [.ended e]) la' none nw' (h.trans ?_) ?_ ⟨hla, rfl, by simp⟩ ?_
  · simp [Smol.finish, echo, hy.1, hy.2.1, hy.2.2]
  · simp [ho]
  · intro rz rs hf
    refine ⟨?_, fun c hc => nomatch hc⟩
    rw [hr, hr']
    exact hf.bytes

theorem echo_readError {lost : Nat} {io : Bool} {T : Times} (hf : Echo z la aw nw)
    (h : z.step (.turn .readError lost io T) = some (z', obs)) : Echoed z (.turn .readError lost io T) z' obs la aw nw := by
  obtain ⟨a, c, hr, hn, ha, h⟩ := echo_turn h
  refine echo_finish (.turn .readError io (instant nw)) z.sys [] la nw h ?_ rfl hf.past ⟨rfl, rfl, rfl⟩ (fun _ => rfl) (fun _ _ => rfl)
  simp [Smol.step, Smol.turn, echo, hr, hn, ha, instant_ok]
  rfl

theorem echo_outgoing {io : Bool} {T : Times} (hf : Echo z la aw nw) (hq : ∀ p ∈ z.sys.queue, Sendable p)
    (h : z.step (.turn .outgoing 0 io T) = some (z', obs)) : Echoed z (.turn .outgoing 0 io T) z' obs la aw nw := by
  obtain ⟨a, c, hr, hn, ha, h⟩ := echo_turn h
  rw [canLose_zero] at h
  simp only [if_true, List.drop_zero, Tokio.onOutgoing] at h
  have key : ∀ s' o, Smol.onOutgoing { echo z la aw nw with now := nw } io (instant nw) = some (s', o) →
      (echo z la aw nw).step (.turn .outgoing io (instant nw)) = some (s', o) := by
    intro s' o hs
    simp [Smol.step, Smol.turn, echo, hr, hn, ha, instant_ok] at hs ⊢
    exact hs
  have rx1 : ∀ o rz, (tokioRxStep rz (.turn .outgoing 0 io T, o)).bytes = rz.bytes := fun _ _ => rfl
  have rx2 : ∀ rs o, (smolRxStep rs (.turn .outgoing io (instant nw), o)).bytes = rs.bytes := fun _ _ => rfl
  split at h
  · rename_i e
    split at h
    · rename_i hcl
      refine echo_finish (.turn .outgoing io (instant nw)) z.sys [] la nw h (key _ _ ?_) rfl hf.past ⟨rfl, rfl, rfl⟩ (rx1 _) rx2
      have e : (echo z la aw nw).sys.queue = [] := e
      have hcl : (echo z la aw nw).sys.pool.closed = true := hcl
      simp [Smol.onOutgoing, e, hcl]
      rfl
    · cases h
  · rename_i p rest e
    have e' : (echo z la aw nw).sys.queue = p :: rest := e
    have hp := (hq p (by simp [e])).writes io
    rw [hp.2] at h
    cases io with
    | false =>
      simp only [Bool.false_eq_true, if_false] at h
      split at h
      · rename_i sys ev hs
        have hs : (echo z la aw nw).sys.step (.write false) = some (sys, ev) := hs
        refine echo_finish (.turn .outgoing false (instant nw)) sys [] la nw h (key _ _ ?_) rfl hf.past ⟨rfl, rfl, rfl⟩ (rx1 _) rx2
        simp [Smol.onOutgoing, e', hp.1, hs]
        rfl
      · cases h
    | true =>
      simp only [if_true] at h
      split at h
      · rename_i sys ev hs
        have hs : (echo z la aw nw).sys.step (.write true) = some (sys, .written ev) := hs
        split at h
        · rename_i hd
          refine echo_finish (.turn .outgoing true (instant nw)) sys [.wrote p nw nw] nw nw h (key _ _ ?_) rfl (Nat.le_refl _)
            ⟨rfl, rfl, rfl⟩ (rx1 _) rx2
          simp [Smol.onOutgoing, e', hp.1, hs, hd, instant]
          rfl
        · rename_i hd
          cases h
          refine echo_one (.turn .outgoing true (instant nw)) [.wrote p nw nw] nw aw nw (key _ _ ?_) rfl ⟨Nat.le_refl _, hf.2, hf.3⟩
            fun rz rs hr => hr.keep (fun c' hc' => ⟨c, hn, by cases hc'; rfl⟩) rfl rfl
          simp [Smol.onOutgoing, e', hp.1, hs, hd, instant]
          simp [echo, hn]
      · rename_i sys ev er hs
        have hs : (echo z la aw nw).sys.step (.write true) = some (sys, .writtenError ev er) := hs
        refine echo_finish (.turn .outgoing true (instant nw)) sys [.wrote p nw nw] la nw h (key _ _ ?_) rfl hf.past
          ⟨rfl, rfl, rfl⟩ (rx1 _) rx2
        simp [Smol.onOutgoing, e', hp.1, hs, instant]
        rfl
      · rename_i sys hs
        have hs : (echo z la aw nw).sys.step (.write true) = some (sys, .panicked) := hs
        refine echo_finish (.turn .outgoing true (instant nw)) sys [.wrote p nw nw] la nw h (key _ _ ?_) rfl hf.past
          ⟨rfl, rfl, rfl⟩ (rx1 _) rx2
        simp [Smol.onOutgoing, e', hp.1, hs, instant]
        rfl
      · cases h

theorem echo_timer {io : Bool} {T : Times} (hf : Echo z la aw nw) (h : z.step (.turn .timer 0 io T) = some (z', obs)) :
    Echoed z (.turn .timer 0 io T) z' obs la aw nw := by
  obtain ⟨a, c, hr, hn, ha, h⟩ := echo_turn h
  rw [canLose_zero] at h
  simp only [if_true, List.drop_zero, Tokio.onTimer] at h
  have hping := sendable_closed.pingReq.writes io
  have htime := sendable_closed.timeout.writes io
  have haw := hf.await
  simp only [hr, Option.getD_some] at haw
  -- smol waits as long as it takes
  let d := la + z.options.keepAlive + (aw.getD 0)
  have hok : (Times.mk nw (nw + d) (nw + d) (nw + d)).ok nw = true := by simp [Times.ok]
  have key : ∀ s' o, z.perform = true → Smol.onTimer { echo z la aw nw with now := nw + d } io ⟨nw, nw + d, nw + d, nw + d⟩ = some (s', o) →
      (echo z la aw nw).step (.turn .timer io ⟨nw, nw + d, nw + d, nw + d⟩) = some (s', o) := by
    intro s' o _ hs
    simp [Smol.step, Smol.turn, echo, hr, hn, ha, hok] at hs ⊢
    exact hs
  have hover : z.perform = true → Smol.sleepOver { echo z la aw nw with now := nw + d } ⟨nw, nw + d, nw + d, nw + d⟩ = true := by
    intro hp
    refine decide_eq_true ?_
    simp only [Smol.sleep, echo, hp, Bool.true_eq_false, if_false]
    show nw + _ ≤ nw + d
    cases aw with
    | none => simp only [d]; omega
    | some x => simp only [d, Option.getD_some]; omega
  have rx1 : ∀ o rz, (tokioRxStep rz (.turn .timer 0 io T, o)).bytes = rz.bytes := fun _ _ => rfl
  have rx2 : ∀ rs o, (smolRxStep rs (.turn .timer io ⟨nw, nw + d, nw + d, nw + d⟩, o)).bytes = rs.bytes := fun _ _ => rfl
  split at h
  · split at h
    · have haw : aw = none := by simpa using haw
      split at h
      · rename_i hp
        have hp : z.perform = true := hp
        have hp' : (echo z la aw nw).perform = true := hp
        have haw' : (echo z la aw nw).await = none := haw
        rw [hping.2] at h
        cases io with
        | true =>
          simp only [if_true] at h
          cases h
          refine echo_one (.turn .timer true ⟨nw, nw + d, nw + d, nw + d⟩) [.wrote .pingReq (nw + d) (nw + d)] (nw + d) (some (nw + d)) (nw + d)
            (key _ _ hp ?_) rfl ⟨Nat.le_refl _, rfl, fun _ => hp⟩ fun rz rs hr => hr.keep (fun c' hc' => ⟨c, hn, by cases hc'; rfl⟩) rfl rfl
          simp only [Smol.onTimer, hover hp, if_true]
          simp only [haw', hp', hping.1, Option.isNone_none, Bool.and_self, if_true, Bool.false_eq_true, if_false]
          simp [echo, hn, hr, hp]
        | false =>
          simp only [Bool.false_eq_true, if_false] at h
          refine echo_finish _ z.sys [] la (nw + d) h (key _ _ hp ?_) rfl (Nat.le_trans hf.past (Nat.le_add_right _ _)) ⟨rfl, rfl, rfl⟩ (rx1 _) rx2
          simp only [Smol.onTimer, hover hp, if_true]
          simp only [haw', hp', hping.1, Option.isNone_none, Bool.and_self, if_true, Bool.false_eq_true, if_false]
          rfl
      · cases h
    · have haw : aw.isSome = true := by simpa using haw
      have hp := hf.on haw
      have haw' : (echo z la aw nw).await.isNone = false := by
        show aw.isNone = false
        cases aw <;> simp_all
      rw [htime.2] at h
      cases io with
      | true =>
        simp only [if_true] at h
        refine echo_finish _ z.sys [.wrote keepAliveDisconnect (nw + d) (nw + d)] la (nw + d) h (key _ _ hp ?_) rfl
          (Nat.le_trans hf.past (Nat.le_add_right _ _)) ⟨rfl, rfl, rfl⟩ (rx1 _) rx2
        simp only [Smol.onTimer, hover hp, haw', htime.1, if_true, Bool.false_and, Bool.false_eq_true, if_false]
        rfl
      | false =>
        simp only [Bool.false_eq_true, if_false] at h
        refine echo_finish _ z.sys [] la (nw + d) h (key _ _ hp ?_) rfl (Nat.le_trans hf.past (Nat.le_add_right _ _)) ⟨rfl, rfl, rfl⟩ (rx1 _) rx2
        simp only [Smol.onTimer, hover hp, haw', htime.1, if_true, Bool.false_and, Bool.false_eq_true, if_false]
        rfl
  · cases h

theorem echo_turn_read {lost : Nat} {io : Bool} {T : Times} (hf : Echo z la aw nw)
    (hb : ∀ c, z.network = some c → Promising c.input) (hp : .ended .panicked ∉ obs)
    (h : z.step (.turn .read lost io T) = some (z', obs)) : Echoed z (.turn .read lost io T) z' obs la aw nw := by
  obtain ⟨a, c, hr, hn, ha, h⟩ := echo_turn h
  have hrun : z.run.isSome = true := by simp [hr]
  have haw := hf.await
  simp only [hr, Option.getD_some] at haw
  simp only [Tokio.onRead] at h
  split at h
  · rename_i p rest hread
    obtain ⟨f, hf', hc⟩ := promising_frame (hb c hn) hread
    simp only [Tokio.onPacket] at h
    split at h
    · cases h
      refine echo_read (la' := nw) (aw' := none) (io' := true) (obs' := [.read .pingResp, .delivered .pingResp]) hrun ha hn hf' hc ?_ rfl
        ⟨Nat.le_refl _, rfl, fun h => nomatch h⟩ (fun c' hc' => by cases hc'; rfl)
      simp [Smol.onPacket, Smol.flushOutgoing, holding, echo, Smol.writeAll, hr, instant]
    · rename_i d
      cases h
      refine echo_read (la' := la) (aw' := none) (io' := true)
        (obs' := [.read (.disconnect d), .delivered (.disconnect d), .ended (.status .incomingDisconnect)]) hrun ha hn hf' hc ?_ rfl
        ⟨hf.past, rfl, fun h => nomatch h⟩ (fun c' hc' => nomatch hc')
      simp [Smol.onPacket, Smol.finish, Tokio.finish, holding, echo]
    · rename_i n1 n2
      have hpk : ∀ s io T, Smol.onPacket s p io T = (match s.sys.step (.receive p) with
          | some (sys, .received _ reply shown) =>
            let s := { s with sys := sys, outgoing := s.outgoing ++ reply.toList }
            some (s.flushOutgoing (if shown then [.read p, .delivered p] else [.read p]) io T)
          | some (sys, .receivedError _ e) => some ({ s with sys := sys }.finish [.read p] (.error (.handler e)))
          | some (sys, .panicked) => some ({ s with sys := sys }.finish [.read p] .panicked)
          | _ => none) := by
        intro s io T
        cases p <;> first | rfl | exact absurd rfl n1 | exact absurd rfl (n2 _)
      have hsys : (holding z la aw nw []).sys = z.sys := rfl
      split at h
      · rename_i sys q reply shown hs
        have hs : z.sys.step (.receive p) = some (sys, .received q reply shown) := hs
        cases reply with
        | none =>
          cases h
          refine echo_read (la' := nw) (aw' := aw) (io' := true) (obs' := if shown then [.read p, .delivered p] else [.read p]) hrun ha hn
            hf' hc ?_ rfl ⟨Nat.le_refl _, hf.2, hf.3⟩ (fun c' hc' => by cases hc'; rfl)
          rw [hpk, hsys, hs]
          simp [Smol.flushOutgoing, holding, echo, Smol.writeAll, instant]
        | some r =>
          have hw := (answer_closed sendable_closed (Sys.step_answer (received_self hs)) _ rfl).writes io
          have hwa : Smol.writeAll [r] io = Smol.writePacket r io := by
            simp only [Smol.writeAll, Smol.writePacket]
          simp only [hw.2] at h
          cases io with
          | true =>
            simp only [if_true] at h
            cases h
            refine echo_read (la' := nw) (aw' := aw) (io' := true)
              (obs' := (if shown then [.read p, .delivered p] else [.read p]) ++ [.wrote r nw nw]) hrun ha hn
              hf' hc ?_ (by simp [untimed]) ⟨Nat.le_refl _, hf.2, hf.3⟩ (fun c' hc' => by cases hc'; rfl)
            rw [hpk, hsys, hs]
            simp [Smol.flushOutgoing, holding, echo, hwa, hw.1, instant]
          | false =>
            simp only [Bool.false_eq_true, if_false] at h
            cases h
            refine echo_read (la' := la) (aw' := none) (io' := false)
              (obs' := (if shown then [.read p, .delivered p] else [.read p]) ++ [.ended (.error .io)]) hrun ha hn
              hf' hc ?_ rfl ⟨hf.past, rfl, fun h => nomatch h⟩ (fun c' hc' => nomatch hc')
            rw [hpk, hsys, hs]
            simp [Smol.flushOutgoing, holding, echo, hwa, hw.1, Smol.finish, Tokio.finish]
      · rename_i sys q er hs
        have hs : z.sys.step (.receive p) = some (sys, .receivedError q er) := hs
        cases h
        refine echo_read (la' := la) (aw' := none) (io' := false) (obs' := [.read p, .ended (.error (.handler er))]) hrun ha hn
          hf' hc ?_ rfl ⟨hf.past, rfl, fun h => nomatch h⟩ (fun c' hc' => nomatch hc')
        rw [hpk, hsys, hs]
        simp [Smol.finish, Tokio.finish, holding, echo]
      · cases h
        simp [Tokio.finish] at hp
      · cases h
  · exact absurd ‹_› fun h => promising_decodes (hb c hn) h
  · split at h
    · refine echo_finish (.turn .readError io (instant nw)) z.sys [] la nw h ?_ rfl hf.past ⟨rfl, rfl, rfl⟩ (fun _ => rfl) (fun _ _ => rfl)
      simp [Smol.step, Smol.turn, echo, hr, hn, ha, instant_ok]
      rfl
    · cases h
  · cases h
    simp [Tokio.finish] at hp

/-- a packet in one piece is read -/
theorem read_whole {p : Packet} {f : Bytes} (h : Readable p f) : SmolStream.read false 2 [] [f] = .done (p, [], []) := by
  have hb := (readable_reads h).1
  obtain ⟨⟨-, first, len, body, rfl, -, hl, -⟩, -⟩ := h
  refine SmolStream.read_good false (SmolStream.Incoming.of_frame hl.1 hl.2.1 hb) 2 [] [_] [] (Nat.le_refl _) (by simp) (by simp) ?_ ?_
  · refine fun n hn => SmolStream.cutsAt_nil (by simp) ?_ hn
    rintro n ⟨a, b, e, ha, hb, -⟩
    have := congrArg List.length e
    have := List.length_pos_iff.2 ha
    have := List.length_pos_iff.2 hb
    simp at *
    omega
  · refine (SmolStream.goodFrom_nil (by omega)).2 ?_
    rintro n ⟨a, b, e, ha, hb, -⟩
    have := congrArg List.length e
    have := List.length_pos_iff.2 ha
    have := List.length_pos_iff.2 hb
    simp at *
    omega

theorem echo_connect {i : TokioConnect} (hf : Echo z la aw nw)
    (hc : ∀ io, Smol.writePacket z.options.connectPacket io = (if io then .ok () else .error .io) ∧
      Tokio.writePacket z.options.connectPacket io = (if io then .ok () else .error .io))
    (hresend : ∀ c sys ps, z.sys.step (.connAck c) = some (sys, .connected c ps) → ∀ p ∈ ps, Sendable p)
    (hb : Promising i.bytes) (hall : ∀ n, i.resendOk n = i.flushOk)
    (hk : ∀ c, .read (.connAck c) ∈ obs → c.serverKeepAlive = none) (hp : .connectPanicked ∉ obs)
    (h : z.step (.connect i) = some (z', obs)) : Echoed z (.connect i) z' obs la aw nw := by
  have kept : ∀ {z' : Tokio} {rz rs : Rx} {obs obs' : List Obs} {i' : SmolConnect}, Fed z rz rs → z'.network = z.network → hasConnected obs = false →
      hasConnected obs' = false → Fed z' (tokioRxStep rz (.connect i, obs)) (smolRxStep rs (.connect i', obs')) := by
    intro z' rz rs obs obs' i' hfed hn h1 h2
    refine hfed.keep (fun c' hc' => ⟨c', hn ▸ hc', rfl⟩) ?_ ?_
    · simp [tokioRxStep, h1]
    · simp [smolRxStep, h2]
  simp only [Tokio.step, Tokio.connect] at h
  split at h
  · rename_i hok
    simp at hok
    obtain ⟨⟨-, ha⟩, hr⟩ := hok
    have haw : aw = none := by have := hf.await; simpa [hr] using this
    subst haw
    rw [(hc _).2] at h
    have key : ∀ chunks resend s' o,
        (match (generalizing := false) SmolStream.read false (chunks.length + 1) [] chunks with
          | .done (.connAck c, buffer, []) =>
            if c.reason = .success then
              Smol.established (echo z la none nw) c buffer ⟨true, chunks, resend, instant nw⟩
                ([.wrote z.options.connectPacket nw nw] ++ [.read (.connAck c)])
            else some (echo z la none nw,
              [.wrote z.options.connectPacket nw nw] ++ [.read (.connAck c)] ++ [.connectFailed (.refused c.reason)])
          | .done (p, _, []) => some (echo z la none nw, [.wrote z.options.connectPacket nw nw] ++ [.read p, .connectFailed (.notConnAck p)])
          | .io => some (echo z la none nw, [.wrote z.options.connectPacket nw nw] ++ [.connectFailed .io])
          | _ => none) = some (s', o) →
        (echo z la none nw).step (.connect ⟨true, chunks, resend, instant nw⟩) = some (s', o) := by
      intro chunks resend s' o hz
      simp only [Smol.step, Smol.connect, echo, instant_ok, ha, hr, Option.isSome_none, Bool.not_false, Bool.and_self, if_true, (hc _).1]
      simp only [echo, hr, Option.isSome_none] at hz
      split at hz <;> simp_all [instant]
    cases hio : i.connectOk with
    | false =>
      rw [hio] at h
      simp only [Bool.false_eq_true, if_false] at h
      cases h
      refine echo_one (.connect ⟨false, [], false, instant nw⟩) [.connectFailed .io] la none nw ?_ rfl ⟨hf.1, hf.2, hf.3⟩ ?_
      · simp [Smol.step, Smol.connect, echo, instant_ok, ha, hr, (hc _).1]
        rfl
      · exact fun rz rs hfed => kept hfed rfl rfl rfl
    | true =>
      rw [hio] at h
      simp only [if_true] at h
      split at h
      · rename_i c rest hrd
        obtain ⟨f, hfr, hbytes⟩ := promising_frame hb hrd
        have hwhole := read_whole hfr
        split at h
        · rename_i hc'
          have hka : c.serverKeepAlive = none := hk c (by
            simp only [Tokio.established] at h
            repeat' split at h
            all_goals first | (cases h; done) | (cases h; simp))
          simp only [Tokio.established, Tokio.noteConnAck, hka] at h
          split at h
          · rename_i sys c' ps hs
            have hs : z.sys.step (.connAck c) = some (sys, .connected c' ps) := hs
            have hsend := hresend c sys ps (connected_self hs)
            have hwa := Sendable.writes_all hsend
            split at h
            · rename_i hfl
              have hps : Tokio.writePackets i.resendOk i.times 0 ps = ps.map fun p => .wrote p i.times.fire i.times.first :=
                Tokio.writePackets_all _ _ _ _ (fun k => (hall k).trans hfl) (fun p hp => by
                  obtain ⟨-, bs, n, e, -⟩ := (Legal.fine (hsend p hp).1 (hsend p hp).2).written
                  exact ⟨_, e⟩)
              rw [hps] at h
              cases h
              refine echo_one (.connect ⟨true, [f], true, instant nw⟩) ([.wrote z.options.connectPacket nw nw] ++ [.read (.connAck c)] ++
                [.delivered (.connAck c)] ++ (ps.map fun p => .wrote p nw nw) ++ [.connected c nw]) nw none nw (key _ _ _ _ ?_) ?_
                ⟨Nat.le_refl _, hf.2, fun h => nomatch h⟩ ?_
              · rw [show [f].length + 1 = 2 from rfl, hwhole]
                have hs' : (echo z nw none nw).sys.step (.connAck c) = some (sys, .connected c' ps) := hs
                simp only [echo] at hs'
                simp [hc', Smol.established, Smol.noteConnAck, hka, echo, hs, hwa, instant]
              · simp [untimed, Function.comp_def]
              · intro rz rs _
                refine ⟨?_, ?_⟩
                · simp [tokioRxStep, smolRxStep, hasConnected]
                  rw [hbytes]
                  exact List.prefix_append _ _
                · intro c2 hc2
                  cases hc2
                  simp [tokioRxStep, smolRxStep, hasConnected]
                  exact hbytes
            · rename_i hfl
              have hfl : i.flushOk = false := by simpa using hfl
              have hps : Tokio.writePackets i.resendOk i.times 0 ps = [] := by
                rw [show i.resendOk = fun _ => false from funext fun k => (hall k).trans hfl]
                exact Tokio.writePackets_none _ _ _
              rw [hps] at h
              cases h
              refine echo_one (.connect ⟨true, [f], false, instant nw⟩) ([.wrote z.options.connectPacket nw nw] ++ [.read (.connAck c)] ++
                [.delivered (.connAck c)] ++ [.connectFailed .io]) nw none nw (key _ _ _ _ ?_) ?_
                ⟨Nat.le_refl _, hf.2, fun h => nomatch h⟩ ?_
              · rw [show [f].length + 1 = 2 from rfl, hwhole]
                simp [hc', Smol.established, Smol.noteConnAck, hka, echo, hs, hwa, instant]
              · simp [untimed]
              · exact fun rz rs hfed => kept hfed rfl (by simp [hasConnected]) (by simp [hasConnected])
          · rename_i sys c' er hs
            have hs : z.sys.step (.connAck c) = some (sys, .connectError c' er) := hs
            cases h
            refine echo_one (.connect ⟨true, [f], false, instant nw⟩) ([.wrote z.options.connectPacket nw nw] ++ [.read (.connAck c)] ++
              [.connectFailed (.handler er)]) nw none nw (key _ _ _ _ ?_) ?_
              ⟨Nat.le_refl _, hf.2, fun h => nomatch h⟩ ?_
            · rw [show [f].length + 1 = 2 from rfl, hwhole]
              simp [hc', Smol.established, Smol.noteConnAck, hka, echo, hs, instant]
            · simp [untimed]
            · exact fun rz rs hfed => kept hfed rfl (by simp [hasConnected]) (by simp [hasConnected])
          · cases h
            simp at hp
          · cases h
        · rename_i hc'
          cases h
          refine echo_one (.connect ⟨true, [f], false, instant nw⟩) ([.wrote z.options.connectPacket nw nw] ++ [.read (.connAck c)] ++
            [.connectFailed (.refused c.reason)]) la none nw (key _ _ _ _ ?_) ?_ ⟨hf.1, hf.2, hf.3⟩ ?_
          · rw [show [f].length + 1 = 2 from rfl, hwhole]
            simp [hc', echo]
          · simp [untimed]
          · exact fun rz rs hfed => kept hfed rfl (by simp [hasConnected]) (by simp [hasConnected])
      · rename_i p rest n1 hrd
        obtain ⟨f, hfr, hbytes⟩ := promising_frame hb hrd
        have hwhole := read_whole hfr
        cases h
        refine echo_one (.connect ⟨true, [f], false, instant nw⟩) ([.wrote z.options.connectPacket nw nw] ++
          [.read p, .connectFailed (.notConnAck p)]) la none nw (key _ _ _ _ ?_) ?_ ⟨hf.1, hf.2, hf.3⟩ ?_
        · rw [show [f].length + 1 = 2 from rfl, hwhole]
          cases p <;> first | rfl | exact (n1 _ rfl).elim
        · simp [untimed]
        · exact fun rz rs hfed => kept hfed rfl (by simp [hasConnected]) (by simp [hasConnected])
      · exact absurd ‹_› fun h => promising_decodes hb h
      · split at h
        · cases h
          refine echo_one (.connect ⟨true, [[]], false, instant nw⟩) ([.wrote z.options.connectPacket nw nw] ++
            [.connectFailed .io]) la none nw (key _ _ _ _ rfl) ?_ ⟨hf.1, hf.2, hf.3⟩ ?_
          · simp [untimed]
          · exact fun rz rs hfed => kept hfed rfl (by simp [hasConnected]) (by simp [hasConnected])
        · cases h
      · cases h
        simp at hp
  · cases h

end

theorem tokio_skip {o : Options} {t : Nat} {ops : List TokioOp} {op : TokioOp} (h : (tokio o t ops).step op = none) :
    tokio o t (ops ++ [op]) = tokio o t ops ∧ tokioTrace o t (ops ++ [op]) = tokioTrace o t ops ∧
      tokioRx o t (ops ++ [op]) = tokioRx o t ops := by
  have h' : Tokio.step (history Tokio.step (Tokio.new o t) ops).1 op = none := h
  simp only [tokio, tokioTrace, tokioRx, Tokio.runOps, history_append, history_one, h', log_append, log, List.append_nil, and_self]

theorem tokioRx_snoc {o : Options} {t : Nat} {ops : List TokioOp} {op : TokioOp} {s' : Tokio} {obs : List Obs}
    (h : (tokio o t ops).step op = some (s', obs)) : tokioRx o t (ops ++ [op]) = tokioRxStep (tokioRx o t ops) (op, obs) := by
  have h' : Tokio.step (history Tokio.step (Tokio.new o t) ops).1 op = some (s', obs) := h
  simp only [tokioRx, log_append, log, h', List.foldl_append, List.foldl_cons, List.foldl_nil]

theorem Spec.PlainUseTokio.before {o : Options} {t : Nat} {ops : List TokioOp} {op : TokioOp}
    (h : PlainUseTokio o t (ops ++ [op])) : PlainUseTokio o t ops := by
  have hsub : ∀ x ∈ tokioTrace o t ops, x ∈ tokioTrace o t (ops ++ [op]) := by
    intro x hx
    cases e : (tokio o t ops).step op with
    | none => rw [(tokio_skip e).2.1]; exact hx
    | some y => rw [(tokio_snoc e).2]; exact List.mem_append_left _ hx
  refine ⟨h.options, fun q id p hm => h.requests q id p (hsub _ hm), fun c hm => h.server c (hsub _ hm),
    fun i hi => h.answers i (List.mem_append_left _ hi), fun i hi => h.resent i (List.mem_append_left _ hi), fun n => ?_, fun n => ?_,
    fun hm => h.kept (hsub _ hm), fun hm => h.sound.1 (hsub _ hm), fun hm => h.sound.2 (hsub _ hm)⟩
  · obtain ⟨m, e⟩ := take_snoc ops op n
    rw [e]
    exact h.arrived m
  · obtain ⟨m, e⟩ := take_snoc ops op n
    rw [e]
    exact h.whole m

theorem tokio_simulated (clientId : Str) (calls : List Setter) (t : Nat) (rops : List TokioOp) :
    PlainUseTokio (Options.build clientId calls) t rops.reverse →
    ∃ ops' tr la aw nw, history Smol.step (Smol.new false (Options.build clientId calls) t) ops' =
        (echo (tokio (Options.build clientId calls) t rops.reverse) la aw nw, tr) ∧
      tr.map untimed = (tokioTrace (Options.build clientId calls) t rops.reverse).map untimed ∧
      Echo (tokio (Options.build clientId calls) t rops.reverse) la aw nw ∧
      Fed (tokio (Options.build clientId calls) t rops.reverse) (tokioRx (Options.build clientId calls) t rops.reverse)
        (smolRx false (Options.build clientId calls) t ops') := by
  induction rops with
  | nil =>
    intro h
    exact ⟨[], [], t, none, t, rfl, rfl, ⟨Nat.le_refl _, rfl, fun h => nomatch h⟩, ⟨List.prefix_refl _, fun c hc => nomatch hc⟩⟩
  | cons op rops ih =>
    rw [List.reverse_cons]
    intro h
    obtain ⟨ops', tr, la, aw, nw, h1, h2, h3, h4⟩ := ih h.before
    generalize rops.reverse = ops at *
    cases e : (tokio (Options.build clientId calls) t ops).step op with
    | none =>
      rw [(tokio_skip e).1, (tokio_skip e).2.1, (tokio_skip e).2.2]
      exact ⟨ops', tr, la, aw, nw, h1, h2, h3, h4⟩
    | some x =>
      obtain ⟨z', obs⟩ := x
      have hsim : Echoed (tokio (Options.build clientId calls) t ops) op z' obs la aw nw := by
        have hL : LegalSys (Options.build clientId calls) (tokio (Options.build clientId calls) t ops).sys :=
          (Tokio.vrun (Options.build clientId calls) t ops).legal h.before.requests
        have hin : ∀ x ∈ obs, x ∈ tokioTrace (Options.build clientId calls) t (ops ++ [op]) := by
          intro x hx
          rw [(tokio_snoc e).2]; exact List.mem_append_right _ hx
        have h0 : (tokioRx (Options.build clientId calls) t ops).taken = 0 := by
          have := h.before.whole ops.length
          rwa [List.take_length] at this
        have hlost : (tokioRxStep (tokioRx (Options.build clientId calls) t ops) (op, obs)).taken = 0 := by
          have := h.whole (ops ++ [op]).length
          rwa [List.take_length, tokioRx_snoc e] at this
        cases op with
        | client op => exact echo_client h3 e
        | dropNetwork => exact echo_drop h3 e
        | start => exact echo_start h3 e
        | arrive bs => exact echo_arrive h3 e
        | close => exact echo_close h3 e
        | cancel lost =>
          refine absurd (hin .cancelled ?_) h.kept
          simp only [Tokio.step] at e
          repeat' split at e
          all_goals first | (cases e; done) | (cases e; simp)
        | connect i =>
          refine echo_connect h3 ?_ ?_ (h.answers i (by simp)) (h.resent i (by simp)) (fun c hc => h.server c (hin _ hc))
            (fun hp => h.sound.1 (hin _ hp)) e
          · intro io
            obtain ⟨⟨bs, e, -⟩, bs', n, e', -⟩ :=
              (sameOptions_fine h.options (tokio_options (Options.build clientId calls) t ops) rfl).written
            have e : (tokio (Options.build clientId calls) t ops).options.connectPacket.write = .ok bs := e
            have e' : (tokio (Options.build clientId calls) t ops).options.connectPacket.asyncWrite = .ok (bs', n) := e'
            simp [Smol.writePacket, Tokio.writePacket, e, e']
          · intro c sys ps hs p hp
            rcases Sys.step_connected_stored hs p hp with ⟨q, hq, rfl⟩ | ⟨id, rfl⟩
            · exact sendable_closed.copy q (hL.held.stored q hq)
            · exact sendable_closed.pubRel id
        | turn b lost io T =>
          cases b with
          | read =>
            refine echo_turn_read h3 ?_ (fun hp => h.sound.2 (hin _ hp)) e
            intro c hc
            obtain ⟨rest, hst, hnet⟩ := Tokio.rxed (Options.build clientId calls) t ops h0
            rw [hc] at hnet
            have hnet : c.input = rest := by
              rcases hnet with hnet | ⟨eof, hnet⟩
              · cases hnet
              · cases hnet; rfl
            rw [hnet]
            have hp := h.before.arrived ops.length
            rw [List.take_length] at hp
            exact promising_rest_stream hst hp
          | readError => exact echo_readError h3 e
          | outgoing =>
            have hl : lost = 0 := by simp only [tokioRxStep] at hlost; omega
            subst hl
            exact echo_outgoing h3 (fun p hp => hL.held.waiting p (.inr hp)) e
          | timer =>
            have hl : lost = 0 := by simp only [tokioRxStep] at hlost; omega
            subst hl
            exact echo_timer h3 e
      obtain ⟨ops2, tr2, la', aw', nw', g1, g2, g3, g4⟩ := hsim
      refine ⟨ops' ++ ops2, tr ++ tr2, la', aw', nw', ?_, ?_, ?_, ?_⟩
      · rw [history_append, h1, g1, (tokio_snoc e).1]
      · rw [(tokio_snoc e).2, List.map_append, List.map_append, h2, g2]
      · rw [(tokio_snoc e).1]; exact g3
      · have hz : (history Smol.step (Smol.new false (Options.build clientId calls) t) ops').1 =
          echo (tokio (Options.build clientId calls) t ops) la aw nw := by rw [h1]
        rw [(tokio_snoc e).1, tokioRx_snoc e]
        have := g4 _ _ h4
        simpa only [smolRx, log_append, List.foldl_append, hz] using this

theorem Smol.writeAll_silent {ps : List Packet} {io : Bool} {e : ConnErr} (h : Smol.writeAll ps io = .error e) (d : DeErr) :
    e ≠ .deserialization d := by
  induction ps with
  | nil =>
    simp only [Smol.writeAll] at h
    split at h <;> cases h
    simp
  | cons p ps ih =>
    simp only [Smol.writeAll] at h
    split at h
    · cases h; simp
    · exact ih h

theorem Smol.connect_silent {s s' : Smol} {i : SmolConnect} {obs : List Obs} (h : s.connect i = some (s', obs)) (d : DeErr) :
    .connectFailed (.deserialization d) ∉ obs := by
  simp only [Smol.connect] at h
  split at h
  · split at h
    · rename_i e hw
      simp only [Smol.writePacket] at hw
      repeat' split at hw
      all_goals cases hw
      all_goals cases h
      all_goals simp
    · split at h
      · split at h
        · simp only [Smol.established] at h
          repeat' split at h
          all_goals first | (cases h; done) | cases h
          all_goals first
            | (simp; done)
            | (simp; intro he; exact Smol.writeAll_silent ‹_› _ he.symm)
        · cases h; simp
      all_goals first | (cases h; done) | (cases h; simp)
  · cases h

theorem smol_silent {checks : Bool} {o : Options} {t : Nat} {ops : List SmolOp} {d : DeErr} :
    .connectFailed (.deserialization d) ∉ smolTrace checks o t ops := by
  suffices ∀ rops : List SmolOp, .connectFailed (.deserialization d) ∉ smolTrace checks o t rops.reverse by
    have := this ops.reverse
    rwa [List.reverse_reverse] at this
  intro rops
  induction rops with
  | nil => exact fun h => nomatch h
  | cons op rops ih =>
    rw [List.reverse_cons]
    cases e : (smol checks o t rops.reverse).step op with
    | none => rw [(smol_skip e).2.1]; exact ih
    | some x =>
      rw [(smol_snoc e).2]
      intro hm
      rcases List.mem_append.1 hm with hm | hm
      · exact ih hm
      · revert hm
        cases op with
        | connect i => exact Smol.connect_silent e d
        | turn b io T =>
          simp only [Smol.step, Smol.turn] at e
          split at e
          · split at e
            · cases b with
              | read c =>
                simp only [Smol.onRead, Smol.onPacket, Smol.flushOutgoing] at e
                repeat' split at e
                all_goals first | (cases e; done) | (cases e; simp [Smol.finish])
              | readError => cases e; simp [Smol.finish]
              | outgoing =>
                simp only [Smol.onOutgoing] at e
                repeat' split at e
                all_goals first | (cases e; done) | (cases e; simp [Smol.finish])
              | timer =>
                simp only [Smol.onTimer] at e
                repeat' split at e
                all_goals first | (cases e; done) | (cases e; simp [Smol.finish])
            · cases e
          · cases e
        | _ =>
          simp only [Smol.step] at e
          repeat' split at e
          all_goals first | (cases e; done) | (cases e; simp)

end Mqrstt
