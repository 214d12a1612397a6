import Verif.Spec.Panic
import Verif.Proof.Calm
import Verif.Proof.NoEof
import Verif.Props.RobustExact
/-!
# What makes `run` and `connect` panic (C117)
-/

namespace Mqrstt
open Mqrstt.Spec _root_.Spec Mqrstt.Props

/-! ## the session -/

/-- when the session panics -/
structure Tame (o : Options) (s : Sys) : Prop where
  receive : s.alive = true → ∀ p, (∃ s', s.step (.receive p) = some (s', .panicked)) ↔ NoSlot o p
  write : s.alive = true → ∀ p rest, s.queue = p :: rest →
    ((∃ s', s.step (.write true) = some (s', .panicked)) ↔ BeyondReceiveMax o p)
  connAck : ∀ c s', s.step (.connAck c) ≠ some (s', .panicked)

theorem tame_of {o : Options} {s : Sys} (h : ∃ sops, s = client o.config sops) : Tame o s := by
  obtain ⟨sops, hc⟩ := h
  have hi := inv o.config sops
  rw [← hc] at hi
  refine ⟨fun ha p => ⟨?_, ?_⟩, fun ha p rest hq => ⟨?_, ?_⟩, ?_⟩
  · rintro ⟨s', hs⟩
    cases hi.step_panicked hs with
    | ack a _ hp hid =>
      rcases hp with rfl | rfl
      · exact hid
      · exact hid
  · intro hn
    cases p <;> simp only [NoSlot] at hn
    · exact (hi.ack_no_slot ha hn).1
    · exact (hi.ack_no_slot ha hn).2
  · rintro ⟨s', hs⟩
    cases hi.step_panicked hs with
    | publish q id rest' hq' hid hlt =>
      rw [hq] at hq'
      cases hq'
      exact ⟨id, hid, hlt⟩
  · intro hb
    cases p <;> simp only [BeyondReceiveMax] at hb
    rename_i q
    obtain ⟨id, hid, hlt⟩ := hb
    have hsub : Submittable (.publish q) := (hi.live ha).qok _ (by rw [hq]; simp)
    have hsl : s.handler.state.slotIndex id = none :=
      State.slotIndex_eq_none.mpr (by rw [(hi.live ha).slots]; exact .inr hlt)
    have hout : Handler.outgoingState s.handler.state (.publish q) = (s.handler.state, .error .panic) := by
      simp only [Handler.outgoingState, Handler.outgoingPublish, hid]
      cases hqos : q.qos with
      | atMostOnce =>
        have := hsub.2.2 hqos
        rw [hid] at this
        cases this
      | _ => simp only [State.addOutgoingPub, hsl]
    have hs : ∃ x, s.step (.write true) = some (x, .panicked) := by
      simp only [Sys.step, ha, if_true, hq, Handler.outgoing, hout]
      exact ⟨_, rfl⟩
    exact hs
  · intro c s' hs
    cases hi.step_panicked hs

theorem VRun.tame {fl o t tr v} (h : VRun fl (View.init o t) tr v) : Tame o v.sys :=
  tame_of (h.contains.imp fun _ hc => hc.sys)

/-! ## both networks -/

theorem VStep.panics {fl o v obs w} (h : VStep fl v obs w) (ht : Tame o v.sys) :
    .ended .panicked ∈ obs ↔ v.running = true ∧ ((∃ p, .read p ∈ obs ∧ NoSlot o p) ∨
      (∃ p a b, .wrote p a b ∈ obs ∧ BeyondReceiveMax o p) ∨ obs = [.ended .panicked]) := by
  have noReceive : ∀ {p sys e}, v.sys.alive = true → v.sys.step (.receive p) = some (sys, e) → e ≠ .panicked → ¬ NoSlot o p := by
    intro p sys e ha hs he hn
    obtain ⟨s', hs'⟩ := (ht.receive ha p).2 hn
    rw [hs] at hs'
    cases hs'
    exact he rfl
  have noWrite : ∀ {p sys e}, v.sys.alive = true → v.sys.step (.write true) = some (sys, e) → e ≠ .panicked →
      (e = .written p ∨ ∃ x, e = .writtenError p x) → ¬ BeyondReceiveMax o p := by
    intro p sys e ha hs he hp hn
    have hq : ∃ rest, v.sys.queue = p :: rest := by
      have hs' := hs
      simp only [Sys.step, ha, if_true] at hs'
      split at hs'
      · cases hs'
      · rename_i q rest hq
        split at hs'
        all_goals cases hs'
        · rcases hp with h | ⟨_, h⟩ <;> cases h
          exact ⟨_, hq⟩
        · rcases hp with h | ⟨_, h⟩ <;> cases h
          exact ⟨_, hq⟩
        · exact absurd rfl he
    obtain ⟨rest, hq⟩ := hq
    obtain ⟨s', hs'⟩ := (ht.write ha p rest hq).2 hn
    rw [hs] at hs'
    cases hs'
    exact he rfl
  cases h
  case accepted hR hp hs =>
    rename_i T p sys reply shown
    have hn := noReceive hR.alive hs (by simp)
    have hr : ∀ r, reply = some r → ¬ BeyondReceiveMax o r := by
      intro r e
      have ha := Sys.step_answer hs
      subst e
      cases ha <;> exact id
    constructor
    · intro hm
      exfalso
      cases shown <;> cases reply <;> simp [shownObs, wrotes] at hm
    · rintro ⟨-, ⟨q, hq, hq'⟩ | ⟨q, a, b, hq, hq'⟩ | e⟩
      · have : q = p := by cases shown <;> cases reply <;> simp [shownObs, wrotes] at hq <;> exact hq
        subst this
        exact absurd hq' hn
      · have : reply = some q := by
          cases shown <;> cases reply <;> simp [shownObs, wrotes] at hq <;> rw [hq.1]
        exact absurd hq' (hr q this)
      · cases shown <;> simp [shownObs] at e
  case acceptedFail hR hp he hs =>
    rename_i T p sys reply shown e
    have hn := noReceive hR.alive hs (by simp)
    constructor
    · intro hm
      exfalso
      cases shown <;> simp [shownObs] at hm
    · rintro ⟨-, ⟨q, hq, hq'⟩ | ⟨q, a, b, hq, hq'⟩ | e⟩
      · have : q = p := by cases shown <;> simp [shownObs] at hq <;> exact hq
        subst this
        exact absurd hq' hn
      · cases shown <;> simp [shownObs] at hq
      · cases shown <;> simp [shownObs] at e
  case refusedPacket hR hp hs =>
    have hn := noReceive hR.alive hs (by simp)
    simp
    exact fun _ => hn
  case readPanic hR hp hs =>
    simp [hR.running]
    exact (ht.receive hR.alive _).1 ⟨_, hs⟩
  case crashed hR => simp [hR.running]
  case outOk hR hs hd =>
    have := noWrite hR.alive hs (by simp) (.inl rfl)
    simp
    exact fun _ => this
  case outDisc hR hs hd =>
    have := noWrite hR.alive hs (by simp) (.inl rfl)
    simp
    exact fun _ => this
  case outErr hR hs =>
    have := noWrite hR.alive hs (by simp) (.inr ⟨_, rfl⟩)
    simp
    exact fun _ => this
  case outPanic hR hq hs =>
    simp [hR.running]
    exact (ht.write hR.alive _ _ hq).1 ⟨_, hs⟩
  case connectFailed hr ha ht' ho => rcases ho with rfl | ⟨_, _, _, rfl⟩ <;> simp [hr]
  all_goals
    first
    | (rename_i hr ha ht' hc; simp [hr]; done)
    | simp_all [NoSlot, BeyondReceiveMax, keepAliveDisconnect, wrotes]

theorem VStep.connectPanics {fl o v obs w} (h : VStep fl v obs w) (ht : Tame o v.sys) (hp : .connectPanicked ∈ obs) :
    v.running = false ∧ ∃ c a b, obs = [.wrote (.connect c) a b, .connectPanicked] := by
  cases h
  case connectCrashed hr ha ht' => exact ⟨hr, _, _, _, rfl⟩
  case establishPanic hr ha ht' hc hs => exact absurd hs (ht.connAck _ _)
  case connectFailed ho => rcases ho with rfl | ⟨_, _, _, rfl⟩ <;> simp at hp
  case accepted => rename_i reply _ shown _ _ _; cases shown <;> cases reply <;> simp [shownObs, wrotes] at hp
  case acceptedFail => rename_i shown _ _ _ _ _; cases shown <;> simp [shownObs] at hp
  all_goals simp [wrotes] at hp

/-! ## tokio: the decoder does not panic -/

theorem Tokio.turn_not_crashed {s s' : Tokio} {b : TokioBranch} {lost : Nat} {io : Bool} {T : Times} {obs : List Obs}
    (h : s.turn b lost io T = some (s', obs)) : obs ≠ [.ended .panicked] := by
  rintro rfl
  unfold Tokio.turn at h
  split at h
  · split at h
    · cases b with
      | read =>
        simp only [Tokio.onRead] at h
        split at h
        · unfold Tokio.onPacket at h
          repeat' split at h
          all_goals simp [Tokio.finish] at h
          all_goals first | (split at h <;> simp at h; done) | skip
        · simp [Tokio.finish] at h
        · split at h <;> simp [Tokio.finish] at h
        · rename_i e h1 h2 he
          cases e with
          | de e => exact h1 _ rfl
          | eof => exact h2 rfl
          | panic => exact ((C15_no_panic_partial _).1 _ he).1 rfl
          | fuel => exact ((C15_no_panic_partial _).1 _ he).2 rfl
      | readError => simp [Tokio.finish] at h
      | outgoing =>
        simp only [Tokio.onOutgoing] at h
        repeat' split at h
        all_goals simp [Tokio.finish] at h
      | timer =>
        simp only [Tokio.onTimer] at h
        repeat' split at h
        all_goals simp [Tokio.finish] at h
    · cases h
  · cases h

theorem Tokio.step_not_crashed {s s' : Tokio} {op : TokioOp} {obs : List Obs} (h : s.step op = some (s', obs)) :
    obs ≠ [.ended .panicked] := by
  cases op with
  | turn b lost io T => exact Tokio.turn_not_crashed h
  | connect i =>
    rintro rfl
    simp only [Tokio.step, Tokio.connect, Tokio.established] at h
    repeat' split at h
    all_goals simp at h
    all_goals grind
  | _ =>
    rintro rfl
    simp only [Tokio.step] at h
    repeat' split at h
    all_goals simp at h

theorem Tokio.connect_not_crashed' {s s' : Tokio} {i : TokioConnect} {c : Connect} {a b : Nat}
    (h : s.connect i = some (s', [.wrote (.connect c) a b, .connectPanicked])) : False := by
  unfold Tokio.connect at h
  split at h
  · simp only at h
    split at h
    · simp at h
    · split at h
      · split at h
        · unfold Tokio.established at h
          simp only at h
          repeat' split at h
          all_goals simp at h
        · simp at h
      · simp at h
      · simp at h
      · split at h <;> simp at h
      · rename_i e h1 h2 he
        cases e with
        | de e => exact h1 _ rfl
        | eof => exact h2 rfl
        | panic => exact ((C15_no_panic_partial _).1 _ he).1 rfl
        | fuel => exact ((C15_no_panic_partial _).1 _ he).2 rfl
  · cases h

theorem Tokio.connect_not_crashed {s s' : Tokio} {op : TokioOp} {c : Connect} {a b : Nat}
    (h : s.step op = some (s', [.wrote (.connect c) a b, .connectPanicked])) : False := by
  cases op with
  | connect i => exact Tokio.connect_not_crashed' h
  | turn b lost io T =>
    simp only [Tokio.step, Tokio.turn, Tokio.onRead, Tokio.onOutgoing, Tokio.onTimer, Tokio.onPacket] at h
    repeat' split at h
    all_goals simp [Tokio.finish] at h
    all_goals grind
  | _ =>
    simp only [Tokio.step] at h
    repeat' split at h
    all_goals simp at h

/-! ## smol: the bytes that make the parser panic -/

theorem firstByte_iff (t : PacketType) (v : UInt8) : (∃ f, PacketType.fromFirstByte v = .ok (t, f)) ↔ FirstByteAllowed t v :=
  (C06_first_byte_accepted v).1 t

theorem FixedHeader.read_ok {b : Bytes} {h : FixedHeader} {hl : Nat} (hh : FixedHeader.read b = .ok (h, hl)) :
    ∃ t flags first len body, b = first :: (len ++ body) ∧ PacketType.fromFirstByte first = .ok (t, flags) ∧ IsVbi len ∧
      h = ⟨t, flags, vbiValue len⟩ ∧ hl = 1 + len.length := by
  rw [FixedHeader.read.eq_def] at hh
  split at hh
  · cases hh
  · rename_i hlen
    split at hh
    · simp at hlen
    · split at hh
      · cases hh
      · rename_i t flags ht
        split at hh
        · cases hh
        · rename_i n k hk
          cases hh
          obtain ⟨len, r, rfl, hv, rfl, rfl⟩ := VarInt.remLen_ok hk
          exact ⟨_, _, _, len, r, rfl, ht, hv, rfl, rfl⟩

theorem _root_.Mqrstt.Spec.NearlyWhole.header {b : Bytes} (h : NearlyWhole b) :
    ∃ hd hl, FixedHeader.read b = .ok (hd, hl) ∧ hd.remLen + hl > b.length ∧ hd.remLen < b.length := by
  obtain ⟨t, first, len, body, rfl, ht, hv, h1, h2⟩ := h
  obtain ⟨f, hf⟩ := (firstByte_iff t first).2 ht
  refine ⟨⟨t, f, vbiValue len⟩, 1 + len.length, ?_, ?_, ?_⟩
  · rw [FixedHeader.read_isVbi first hv, hf]
  · simp; omega
  · simp; omega

theorem SmolStream.parse_panics (c : Bool) (b : Bytes) :
    SmolStream.parse c b = .panic ↔ (c = true ∧ NearlyWhole b) ∨ CutConnect b := by
  have hexact := (C15_exact_partial b).2
  have hfuel := (C15_exact_partial b).1
  have hread := Packet.read.eq_def b
  cases hh : FixedHeader.read b with
  | error e =>
    rw [hh] at hread
    simp only at hread
    have hn : ¬ NearlyWhole b := by
      intro hn
      obtain ⟨_, _, h, -⟩ := hn.header
      rw [hh] at h
      cases h
    cases e with
    | insufficientBytes n =>
      have hp : SmolStream.parse c b = .insufficient := by simp [SmolStream.parse, hh]
      have hc : ¬ CutConnect b := by
        rw [← hexact, hread]
        simp
      simp [hp, hn, hc]
    | err f =>
      have hf : ∃ d, f = .de d := by
        rcases Packet.read_cases b with ⟨first, len, body, rest, t, flags, rfl, ht, hv, hl⟩ | ⟨n, hn⟩ | ⟨d, hd⟩
        · rw [FixedHeader.read_isVbi first hv, ht] at hh; cases hh
        · rw [hread] at hn; cases hn
        · rw [hread] at hd; cases hd; exact ⟨_, rfl⟩
      obtain ⟨d, rfl⟩ := hf
      have hp : SmolStream.parse c b = .failed d := by simp [SmolStream.parse, hh]
      have hc : ¬ CutConnect b := by
        rw [← hexact, hread]
        simp
      simp [hp, hn, hc]
  | ok r =>
    obtain ⟨hd, hl⟩ := r
    rw [hh] at hread
    simp only at hread
    obtain ⟨t, flags, first, len, body, hb, ht, hv, hd', hl'⟩ := FixedHeader.read_ok hh
    simp only [SmolStream.parse, hh]
    by_cases hlen : hd.remLen + hl > b.length
    · have hc : ¬ CutConnect b := by
        rw [← hexact, hread, if_pos hlen]
        simp
      rw [if_pos hlen]
      simp only [hc, or_false, usizeSub]
      by_cases hlt : b.length ≤ hd.remLen
      · have hn : ¬ NearlyWhole b := by
          intro hn
          obtain ⟨_, _, h, -, h2⟩ := hn.header
          rw [hh] at h
          cases h
          omega
        simp [hlt, hn]
      · have hn : NearlyWhole b := by
          refine ⟨t, first, len, body, hb, (firstByte_iff _ _).1 ⟨_, ht⟩, hv, ?_, ?_⟩
          · subst hb hd' hl'
            simp only [List.length_cons, List.length_append] at hlen
            omega
          · subst hb hd' hl'
            simp only [List.length_cons, List.length_append] at hlt
            omega
        cases c <;> simp [hlt, hn]
    · have hn : ¬ NearlyWhole b := by
        intro hn
        obtain ⟨_, _, h, h1, -⟩ := hn.header
        rw [hh] at h
        cases h
        omega
      rw [if_neg hlen]
      rw [if_neg hlen] at hread
      simp only [hn, and_false, false_or]
      rw [← hexact, hread]
      rw [hread] at hfuel
      simp only [SmolStream.decode]
      cases hrp : Packet.readPacket hd ((b.drop hl).take hd.remLen) with
      | ok p => simp [hrp]
      | error f =>
        rw [hrp] at hfuel
        have hne : f ≠ .eof := by
          rintro rfl
          exact Packet.readPacket_ne_eof _ _ hrp
        cases f <;> simp_all

/-! ## smol: which steps panic while parsing -/

theorem Smol.turn_crashed {s s' : Smol} {b : SmolBranch} {io : Bool} {T : Times} {obs : List Obs}
    (h : s.turn b io T = some (s', obs)) (he : obs = [.ended .panicked]) :
    ∃ chunk buffer, b = .read chunk ∧ chunk ≠ [] ∧ s.network = some buffer ∧
      SmolStream.parse s.checks (buffer ++ chunk) = .panic := by
  subst he
  unfold Smol.turn at h
  split at h
  · rename_i buffer hn
    split at h
    · cases b with
      | read chunk =>
        simp only [Smol.onRead] at h
        split at h
        · simp [Smol.finish] at h
        · rename_i hne
          split at h
          · cases h
          · split at h
            · exfalso
              unfold Smol.onPacket Smol.flushOutgoing at h
              repeat' split at h
              all_goals simp [Smol.finish] at h
              all_goals repeat' split at h
              all_goals simp at h
            · simp at h
            · simp [Smol.finish] at h
            · rename_i hp
              exact ⟨_, _, rfl, hne, hn, hp⟩
      | readError => simp [Smol.finish] at h
      | outgoing =>
        exfalso
        simp only [Smol.onOutgoing] at h
        repeat' split at h
        all_goals simp [Smol.finish] at h
      | timer =>
        exfalso
        simp only [Smol.onTimer] at h
        repeat' split at h
        all_goals simp [Smol.finish] at h
    · cases h
  · cases h

theorem Smol.turn_crashes {s s' : Smol} {chunk buffer : Bytes} {io : Bool} {T : Times} {obs : List Obs}
    (h : s.turn (.read chunk) io T = some (s', obs)) (hne : chunk ≠ []) (hn : s.network = some buffer)
    (hp : SmolStream.parse s.checks (buffer ++ chunk) = .panic) : obs = [.ended .panicked] := by
  simp only [Smol.turn, hn] at h
  split at h
  · simp only [Smol.onRead, if_neg hne, hp] at h
    split at h
    · cases h
    · simp [Smol.finish] at h
      exact h.2.symm
  · cases h

theorem Smol.step_crashed {s s' : Smol} {op : SmolOp} {obs : List Obs} (h : s.step op = some (s', obs)) :
    obs = [.ended .panicked] ↔ ∃ chunk buffer io T, op = .turn (.read chunk) io T ∧ chunk ≠ [] ∧
      s.network = some buffer ∧ SmolStream.parse s.checks (buffer ++ chunk) = .panic := by
  constructor
  · intro he
    cases op with
    | turn b io T =>
      obtain ⟨chunk, buffer, rfl, h1, h2, h3⟩ := Smol.turn_crashed h he
      exact ⟨_, _, _, _, rfl, h1, h2, h3⟩
    | connect i =>
      exfalso
      subst he
      simp only [Smol.step, Smol.connect, Smol.established] at h
      repeat' split at h
      all_goals simp at h
      all_goals grind
    | _ =>
      exfalso
      subst he
      simp only [Smol.step] at h
      repeat' split at h
      all_goals simp at h
  · rintro ⟨chunk, buffer, io, T, rfl, h1, h2, h3⟩
    exact Smol.turn_crashes h h1 h2 h3

/-- a first chunk with a whole packet is parsed as in a run -/
theorem SmolStream.read_whole (c : Bool) {first : Bytes} (more : List Bytes) (fuel : Nat) (hw : HoldsPacket first)
    (hc : ¬ CutConnect first) : SmolStream.read c (fuel + 2) [] (first :: more) ≠ .panic := by
  obtain ⟨t, x, len, body, rest, hb, ht, hv, hl⟩ := hw
  obtain ⟨f, hf⟩ := (firstByte_iff t x).2 ht
  have hh : FixedHeader.read first = .ok (⟨t, f, vbiValue len⟩, 1 + len.length) := by
    rw [hb, FixedHeader.read_isVbi x hv, hf]
  have hpos : 1 ≤ len.length := by
    cases len with
    | nil => simp [IsVbi] at hv
    | cons a l => simp
  have hlen : first.length = 1 + len.length + body.length + rest.length := by
    rw [hb]; simp; omega
  have hne : first ≠ [] := by rintro rfl; simp at hlen; omega
  have h1 : FixedHeader.read [] = .error (.insufficientBytes 2) := by rfl
  have hr : SmolStream.read c (fuel + 2) [] (first :: more) = SmolStream.read c (fuel + 1) first more := by
    rw [SmolStream.read]
    simp only [h1, SmolStream.readRequired, if_neg hne, List.nil_append]
    rw [if_pos (by omega)]
  have hp : SmolStream.parse c first ≠ .panic := by
    rw [Ne, SmolStream.parse_panics]
    rintro (⟨-, h⟩ | h)
    · obtain ⟨_, _, h, h1, -⟩ := h.header
      rw [hh] at h
      cases h
      simp at h1
      omega
    · exact hc h
  rw [hr, SmolStream.read]
  simp only [hh]
  rw [if_neg (by simp; omega)]
  simp only [SmolStream.parse, hh] at hp
  rw [if_neg (by simp; omega)] at hp
  unfold SmolStream.readBody
  simp only
  rw [if_neg (by simp; omega)]
  split
  · simp
  · simp
  · rename_i h1 h2 
    cases hd : SmolStream.decode ⟨t, f, vbiValue len⟩ ((first.drop (1 + len.length)).take (vbiValue len))
        ((first.drop (1 + len.length)).drop (vbiValue len)) with
    | packet p b => exact absurd hd (h1 _ _)
    | failed e => exact absurd hd (h2 _)
    | panic => exact absurd hd hp
    | insufficient =>
      unfold SmolStream.decode at hd
      split at hd <;> cases hd

theorem Smol.connect_crashed {s s' : Smol} {op : SmolOp} {c : Connect} {a b : Nat}
    (h : s.step op = some (s', [.wrote (.connect c) a b, .connectPanicked])) :
    ∃ i, op = .connect i ∧ ∀ first more, i.chunks = first :: more → ¬ HoldsPacket first ∨ CutConnect first := by
  cases op with
  | connect i =>
    refine ⟨i, rfl, fun first more hch => ?_⟩
    by_cases hw : HoldsPacket first
    · by_cases hc : CutConnect first
      · exact .inr hc
      · exfalso
        have hp := SmolStream.read_whole s.checks more more.length hw hc
        simp only [Smol.step, Smol.connect, hch, List.length_cons] at h
        split at h
        · split at h
          · simp at h
          · split at h
            · split at h
              · unfold Smol.established at h
                simp only at h
                repeat' split at h
                all_goals simp at h
              · simp at h
            · simp at h
            · simp at h
            · simp at h
            · rename_i hp'; exact hp hp'
            · simp at h
        · cases h
    · exact .inl hw
  | turn b io T =>
    exfalso
    simp only [Smol.step, Smol.turn, Smol.onRead, Smol.onOutgoing, Smol.onTimer, Smol.onPacket, Smol.flushOutgoing] at h
    repeat' split at h
    all_goals simp [Smol.finish] at h
    all_goals grind
  | _ =>
    exfalso
    simp only [Smol.step] at h
    repeat' split at h
    all_goals simp at h

/-! ## options whose send maximum is at most the receive maximum -/

theorem VStep.panics_max {fl o v obs w} (h : VStep fl v obs w) (ht : Tame o v.sys)
    (hb : v.sys.alive = true → ∀ p rest, v.sys.queue = p :: rest → ¬ BeyondReceiveMax o p) (hp : .ended .panicked ∈ obs) :
    (∃ p, .read p ∈ obs ∧ NoSlot o p) ∨ obs = [.ended .panicked] := by
  cases h
  case readPanic hR hp hs => exact .inl ⟨_, by simp, (ht.receive hR.alive _).1 ⟨_, hs⟩⟩
  case crashed => exact .inr rfl
  case outPanic hR hq hs => exact absurd ((ht.write hR.alive _ _ hq).1 ⟨_, hs⟩) (hb hR.alive _ _ hq)
  case connectFailed ho => rcases ho with rfl | ⟨_, _, _, rfl⟩ <;> simp at hp
  case accepted => rename_i reply _ shown _ _ _; cases shown <;> cases reply <;> simp [shownObs, wrotes] at hp
  case acceptedFail => rename_i shown _ _ _ _ _; cases shown <;> simp [shownObs] at hp
  all_goals simp [wrotes] at hp

end Mqrstt
