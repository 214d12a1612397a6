import Verif.Spec.Bytes
import Verif.Proof.Connecting
import Verif.Proof.Framing
import Verif.Proof.Local
/-! # Bytes that arrive and packets that are processed -/

namespace Mqrstt
open Mqrstt.Spec _root_.Spec

/-! ## the log of a history -/

section
variable {S O : Type} {step : S → O → Option (S × List Obs)}

/-- induction over a history and a quantity computed from its log -/
theorem log_induct {R : Type} (f : R → O × List Obs → R) (P : S → R → Prop)
    (hs : ∀ s r op s' o, P s r → step s op = some (s', o) → P s' (f r (op, o))) (ops : List O) :
    ∀ s r, P s r → P (history step s ops).1 ((log step s ops).foldl f r) := by
  induction ops with
  | nil => intro s r h; exact h
  | cons op ops ih =>
    intro s r h
    simp only [history, log]
    cases e : step s op with
    | none => exact ih s r h
    | some x =>
      obtain ⟨s', o⟩ := x
      exact ih s' _ (hs s r op s' o h e)

end

/-! ## streams of packets -/

section
variable {R : Bytes → Packet → Bytes → Prop}

theorem _root_.Mqrstt.Spec.Stream.append {a b c : Bytes} {ps qs : List Packet} (h : Stream R a ps b) (h2 : Stream R b qs c) :
    Stream R a (ps ++ qs) c := by
  induction h with
  | nil => exact h2
  | cons h _ ih => exact .cons h (ih h2)

theorem _root_.Mqrstt.Spec.Stream.more {a b m : Bytes} {ps : List Packet}
    (ext : ∀ b p b' m, R b p b' → R (b ++ m) p (b' ++ m)) (h : Stream R a ps b) : Stream R (a ++ m) ps (b ++ m) := by
  induction h with
  | nil => exact .nil _
  | cons h _ ih => exact .cons (ext _ _ _ _ h) ih

theorem _root_.Mqrstt.Spec.Stream.prefix_of (ext : ∀ b p b' m, R b p b' → R (b ++ m) p (b' ++ m))
    (fn : ∀ b p b' q c', R b p b' → R b q c' → p = q ∧ b' = c') (hnil : ∀ p b', ¬ R [] p b')
    {bs rest : Bytes} {ps : List Packet} (h : Stream R bs ps rest) {fs : List (Bytes × Packet)} (hf : Encodings R fs)
    (hb : bs <+: (fs.map (·.1)).flatten) : ps <+: fs.map (·.2) := by
  induction h generalizing fs with
  | nil => exact List.nil_prefix
  | @cons bs bs' rest p ps h _ ih =>
    cases fs with
    | nil =>
      obtain ⟨m, e⟩ := hb
      simp at e
      rw [e.1] at h
      exact absurd h (hnil _ _)
    | cons x fs =>
      obtain ⟨m, e⟩ := hb
      simp only [List.map_cons, List.flatten_cons] at e
      have h1 := ext _ _ _ m h
      have h2 := ext _ _ _ (fs.map (·.1)).flatten (hf x (by simp))
      rw [e] at h1
      obtain ⟨rfl, e2⟩ := fn _ _ _ _ _ h1 h2
      simp only [List.nil_append] at e2
      simp only [List.map_cons]
      exact List.prefix_cons_inj _ |>.2 (ih (fun y hy => hf y (by simp [hy])) ⟨m, e2⟩)

end

theorem BufferPacket.more (b : Bytes) (p : Packet) (b' m : Bytes) (h : BufferPacket b p b') :
    BufferPacket (b ++ m) p (b' ++ m) := by
  have h : Packet.read b = (.ok p, b') := h
  show Packet.read (b ++ m) = (.ok p, b' ++ m)
  rcases Packet.read_cases b with ⟨first, len, body, rest, t, flags, rfl, ht, hv, hb⟩ | ⟨n, hn⟩ | ⟨e, he⟩
  · rw [Packet.read_isVbi ht hv hb] at h
    rw [List.cons_append, List.append_assoc, List.append_assoc, Packet.read_isVbi ht hv hb]
    simp only [Prod.mk.injEq] at h
    rw [h.1, h.2]
  · rw [hn] at h; cases h
  · rw [he] at h; cases h

theorem BufferPacket.fn (b : Bytes) (p : Packet) (b' : Bytes) (q : Packet) (c' : Bytes) (h : BufferPacket b p b')
    (h2 : BufferPacket b q c') : p = q ∧ b' = c' := by
  have e : ((.ok p, b') : Except ReadBytes Packet × Bytes) = (.ok q, c') := h.symm.trans h2
  cases e; exact ⟨rfl, rfl⟩

theorem BufferPacket.nil (p : Packet) (b' : Bytes) : ¬ BufferPacket [] p b' := by
  intro h; cases h

theorem StreamPacket.more (b : Bytes) (p : Packet) (b' m : Bytes) (h : StreamPacket b p b') :
    StreamPacket (b ++ m) p (b' ++ m) := (Packet.asyncRead_local b m).1 _ _ h

theorem StreamPacket.fn (b : Bytes) (p : Packet) (b' : Bytes) (q : Packet) (c' : Bytes) (h : StreamPacket b p b')
    (h2 : StreamPacket b q c') : p = q ∧ b' = c' := by
  have e : (.ok (p, b') : Except Fail (Packet × Bytes)) = .ok (q, c') := h.symm.trans h2
  cases e; exact ⟨rfl, rfl⟩

theorem StreamPacket.nil (p : Packet) (b' : Bytes) : ¬ StreamPacket [] p b' := by
  intro h; cases h

/-! ## the buffer of smol -/

theorem FixedHeader.read_more {b : Bytes} {h : FixedHeader} {k : Nat} (hh : FixedHeader.read b = .ok (h, k)) (m : Bytes) :
    FixedHeader.read (b ++ m) = .ok (h, k) := by
  rw [FixedHeader.read.eq_def] at hh
  split at hh
  · cases hh
  · split at hh
    · cases hh
    · rename_i first rest
      split at hh
      · cases hh
      · rename_i t flags ht
        split at hh
        · cases hh
        · rename_i n k' hk
          cases hh
          obtain ⟨len, r, rfl, hv, rfl, rfl⟩ := VarInt.remLen_ok hk
          rw [List.cons_append, List.append_assoc, FixedHeader.read_isVbi _ hv, ht]

theorem FixedHeader.read_len {b : Bytes} {h : FixedHeader} {k : Nat} (hh : FixedHeader.read b = .ok (h, k)) :
    2 ≤ k ∧ k ≤ b.length := by
  rw [FixedHeader.read.eq_def] at hh
  split at hh
  · cases hh
  · split at hh
    · cases hh
    · rename_i first rest
      split at hh
      · cases hh
      · rename_i t flags ht
        split at hh
        · cases hh
        · rename_i n k' hk
          cases hh
          obtain ⟨len, r, rfl, hv, rfl, rfl⟩ := VarInt.remLen_ok hk
          have := VarInt.isVbi_pos hv
          simp
          omega

namespace SmolStream

theorem parse_packet {checks : Bool} {b rest : Bytes} {p : Packet} (h : parse checks b = .packet p rest) :
    BufferPacket b p rest := by
  show Packet.read b = _
  rw [parse] at h
  rw [Packet.read]
  split at h
  · cases h
  · cases h
  · cases h
  · rename_i h' hl hh
    rw [hh]
    simp only
    split at h
    · split at h <;> cases h
    · rename_i hle
      rw [if_neg hle]
      simp only [decode] at h
      split at h
      · rename_i e; cases h; rw [e]
      · cases h
      · cases h

theorem parse_of_packet {checks : Bool} {b rest : Bytes} {p : Packet} (h : BufferPacket b p rest) :
    parse checks b = .packet p rest := by
  have h : Packet.read b = (.ok p, rest) := h
  rw [Packet.read] at h
  rw [parse]
  split at h
  · cases h
  · rename_i h' hl hh
    rw [hh]
    simp only
    split at h
    · cases h
    · rename_i hle
      rw [if_neg hle]
      simp only [decode]
      simp only [Prod.mk.injEq] at h
      obtain ⟨h1, rfl⟩ := h
      split at h1
      · rename_i e; cases h1; rw [e]
      · cases h1

theorem readRequired_used {required : Nat} {chunks : List Bytes} {total : Nat} {b b' : Bytes} {rest : List Bytes}
    (h : readRequired required total b chunks = .done (b', rest)) :
    ∃ used, chunks = used ++ rest ∧ b' = b ++ used.flatten := by
  induction chunks generalizing total b with
  | nil => simp [readRequired] at h
  | cons c cs ih =>
    simp only [readRequired] at h
    split at h
    · cases h
    · split at h
      · cases h; exact ⟨[c], rfl, by simp⟩
      · obtain ⟨used, rfl, rfl⟩ := ih h
        exact ⟨c :: used, rfl, by simp⟩

theorem readBody_packet {h : FixedHeader} {hl : Nat} {b b' : Bytes} {chunks rest : List Bytes} {p : Packet}
    (hh : FixedHeader.read b = .ok (h, hl)) (e : readBody h hl b chunks = .done (p, b', rest)) :
    rest = chunks ∧ BufferPacket b p b' := by
  have := (FixedHeader.read_len hh).2
  simp only [readBody] at e
  split at e
  · cases e
  · rename_i hle
    simp only [List.length_drop] at hle
    simp only [decode] at e
    split at e
    · rename_i q bb he
      split at he
      · rename_i hr
        cases he; cases e
        refine ⟨rfl, ?_⟩
        show Packet.read b = _
        rw [Packet.read, hh]
        simp only
        rw [if_neg (by omega), hr]
      · cases he
      · cases he
    · cases e
    · cases e

theorem read_packet {checks : Bool} {fuel : Nat} {b b' : Bytes} {chunks rest : List Bytes} {p : Packet}
    (h : read checks fuel b chunks = .done (p, b', rest)) :
    ∃ used, chunks = used ++ rest ∧ BufferPacket (b ++ used.flatten) p b' := by
  induction fuel generalizing b chunks with
  | zero => simp [read] at h
  | succ fuel ih =>
    simp only [read] at h
    split at h
    · split at h
      · rename_i hr
        obtain ⟨u1, rfl, rfl⟩ := readRequired_used hr
        obtain ⟨u2, rfl, hp⟩ := ih h
        refine ⟨u1 ++ u2, by simp, ?_⟩
        simpa using hp
      · cases h
      · cases h
      · cases h
    · cases h
    · cases h
    · rename_i hd hl hh
      split at h
      · split at h
        · cases h
        · split at h
          · rename_i hr
            obtain ⟨u1, rfl, rfl⟩ := readRequired_used hr
            obtain ⟨rfl, hp⟩ := readBody_packet (FixedHeader.read_more hh _) h
            exact ⟨u1, rfl, hp⟩
          · cases h
          · cases h
          · cases h
      · obtain ⟨rfl, hp⟩ := readBody_packet hh h
        exact ⟨[], rfl, by simpa using hp⟩

end SmolStream

/-! ## the packets read by a step of smol -/

@[simp] theorem readIn_nil : readIn [] = [] := rfl
@[simp] theorem readIn_read (p : Packet) (l : List Obs) : readIn (.read p :: l) = p :: readIn l := rfl
@[simp] theorem readIn_wrote (p : Packet) (a b : Nat) (l : List Obs) : readIn (.wrote p a b :: l) = readIn l := rfl
@[simp] theorem readIn_delivered (p : Packet) (l : List Obs) : readIn (.delivered p :: l) = readIn l := rfl
@[simp] theorem readIn_ended (e : End) (l : List Obs) : readIn (.ended e :: l) = readIn l := rfl
@[simp] theorem readIn_user (e : Event) (l : List Obs) : readIn (.user e :: l) = readIn l := rfl
@[simp] theorem readIn_connected (c : ConnAck) (t : Nat) (l : List Obs) : readIn (.connected c t :: l) = readIn l := rfl
@[simp] theorem readIn_connectFailed (e : ConnErr) (l : List Obs) : readIn (.connectFailed e :: l) = readIn l := rfl
@[simp] theorem readIn_connectPanicked (l : List Obs) : readIn (.connectPanicked :: l) = readIn l := rfl
@[simp] theorem readIn_started (l : List Obs) : readIn (.started :: l) = readIn l := rfl
@[simp] theorem readIn_cancelled (l : List Obs) : readIn (.cancelled :: l) = readIn l := rfl

theorem readIn_writes (ps : List Packet) (a b : Nat) : readIn (ps.map fun p => .wrote p a b) = [] := by
  induction ps with
  | nil => rfl
  | cons p ps ih => exact ih

/-- the step read these packets, and the buffer is what is given, or the connection is over -/
def Smol.Took (r : Option (Smol × List Obs)) (ps : List Packet) (b : Bytes) : Prop :=
  ∀ s' obs, r = some (s', obs) → readIn obs = ps ∧ (s'.network = some b ∨ s'.network = none)

theorem Smol.took_finish {s : Smol} {obs : List Obs} {e : End} {ps : List Packet} {b : Bytes} (h : readIn obs = ps) :
    Took (some (s.finish obs e)) ps b := by
  intro s' o he
  simp only [finish, Option.some.injEq, Prod.mk.injEq] at he
  obtain ⟨rfl, rfl⟩ := he
  exact ⟨by simp [readIn_append, h], .inr rfl⟩

theorem Smol.took_some {s : Smol} {obs : List Obs} {ps : List Packet} {b : Bytes} (h : readIn obs = ps)
    (hb : s.network = some b) : Took (some (s, obs)) ps b := by
  intro s' o he
  cases he
  exact ⟨h, .inl hb⟩

theorem Smol.took_none {ps : List Packet} {b : Bytes} : Took none ps b := by intro s' o h; cases h

theorem Smol.flushOutgoing_took {s : Smol} {obs : List Obs} {io : Bool} {T : Times} {ps : List Packet} {b : Bytes}
    (h : readIn obs = ps) (hb : s.network = some b) : Took (some (s.flushOutgoing obs io T)) ps b := by
  simp only [flushOutgoing]
  split
  · exact took_some (by simp [readIn_append, h, readIn_writes]) hb
  · exact took_finish h

theorem Smol.onPacket_took {s : Smol} {p : Packet} {io : Bool} {T : Times} {b : Bytes} (hb : s.network = some b) :
    Took (s.onPacket p io T) [p] b := by
  simp only [onPacket]
  split
  · exact flushOutgoing_took rfl hb
  · exact took_finish rfl
  · split
    · rename_i shown _
      cases shown
      · exact flushOutgoing_took rfl hb
      · exact flushOutgoing_took rfl hb
    · exact took_finish rfl
    · exact took_finish rfl
    · exact took_none

theorem Smol.onOutgoing_took {s : Smol} {io : Bool} {T : Times} {b : Bytes} (hb : s.network = some b) :
    Took (s.onOutgoing io T) [] b := by
  simp only [onOutgoing]
  split
  · split
    · exact took_finish rfl
    · exact took_none
  · split
    · split
      · exact took_finish rfl
      · exact took_none
    · split
      · split
        · exact took_finish rfl
        · exact took_some rfl hb
      · exact took_finish rfl
      · exact took_finish rfl
      · exact took_none

theorem Smol.onTimer_took {s : Smol} {io : Bool} {T : Times} {b : Bytes} (hb : s.network = some b) :
    Took (s.onTimer io T) [] b := by
  simp only [onTimer]
  split
  · split
    · split
      · exact took_some rfl hb
      · exact took_finish rfl
    · split
      · exact took_finish rfl
      · exact took_finish rfl
  · exact took_none

theorem Smol.onRead_took {s : Smol} {buffer chunk : Bytes} {io : Bool} {T : Times} :
    (∃ p rest, BufferPacket (buffer ++ chunk) p rest ∧ Took (s.onRead buffer chunk io T) [p] rest) ∨
      Took (s.onRead buffer chunk io T) [] (buffer ++ chunk) := by
  simp only [onRead]
  split
  · exact .inr (took_finish rfl)
  · split
    · exact .inr took_none
    · split
      · rename_i p rest hp
        exact .inl ⟨p, rest, SmolStream.parse_packet hp, onPacket_took rfl⟩
      · exact .inr (took_some rfl rfl)
      · exact .inr (took_finish rfl)
      · exact .inr (took_finish rfl)

theorem hasConnected_append (a b : List Obs) : hasConnected (a ++ b) = (hasConnected a || hasConnected b) := by
  simp [hasConnected]

theorem hasConnected_writes (ps : List Packet) (a b : Nat) : hasConnected (ps.map fun p => .wrote p a b) = false := by
  simp [hasConnected]

/-- a `connect` either fails, and a connection there was stays or is over, or it has a new connection whose buffer is what
followed the CONNACK -/
theorem Smol.connect_took {s s' : Smol} {i : SmolConnect} {obs : List Obs} (h : s.connect i = some (s', obs)) :
    (hasConnected obs = false ∧ (s'.network = s.network ∨ s'.network = none)) ∨
    (∃ c b, hasConnected obs = true ∧ readIn obs = [.connAck c] ∧ BufferPacket i.chunks.flatten (.connAck c) b ∧
      s'.network = some b) := by
  simp only [connect] at h
  split at h
  · split at h
    · simp only [Option.some.injEq, Prod.mk.injEq] at h
      obtain ⟨rfl, rfl⟩ := h
      exact .inl ⟨rfl, .inl rfl⟩
    · split at h
      · rename_i c buffer hr
        obtain ⟨used, hu, hp⟩ := SmolStream.read_packet hr
        simp only [List.append_nil] at hu
        subst hu
        rw [List.nil_append] at hp
        split at h
        · simp only [established] at h
          split at h
          · split at h
            · simp only [Option.some.injEq, Prod.mk.injEq] at h
              obtain ⟨rfl, rfl⟩ := h
              exact .inr ⟨c, buffer, by simp [hasConnected], by simp [readIn_append, readIn_writes], hp, rfl⟩
            · simp only [Option.some.injEq, Prod.mk.injEq] at h
              obtain ⟨rfl, rfl⟩ := h
              exact .inl ⟨rfl, .inl rfl⟩
          · simp only [Option.some.injEq, Prod.mk.injEq] at h
            obtain ⟨rfl, rfl⟩ := h
            exact .inl ⟨rfl, .inl rfl⟩
          · simp only [Option.some.injEq, Prod.mk.injEq] at h
            obtain ⟨rfl, rfl⟩ := h
            exact .inl ⟨rfl, .inr rfl⟩
          · simp at h
        · simp only [Option.some.injEq, Prod.mk.injEq] at h
          obtain ⟨rfl, rfl⟩ := h
          exact .inl ⟨rfl, .inl rfl⟩
      · simp only [Option.some.injEq, Prod.mk.injEq] at h
        obtain ⟨rfl, rfl⟩ := h
        exact .inl ⟨rfl, .inl rfl⟩
      · simp at h
      · simp only [Option.some.injEq, Prod.mk.injEq] at h
        obtain ⟨rfl, rfl⟩ := h
        exact .inl ⟨rfl, .inl rfl⟩
      · simp only [Option.some.injEq, Prod.mk.injEq] at h
        obtain ⟨rfl, rfl⟩ := h
        exact .inl ⟨rfl, .inr rfl⟩
      · simp at h
  · simp at h

/-- what has arrived is the packets read and the buffer -/
def Smol.Rxed (s : Smol) (r : Rx) : Prop :=
  ∃ rest, Stream BufferPacket r.bytes r.packets rest ∧ (s.network = none ∨ s.network = some rest)

theorem Smol.rxed_step (s : Smol) (r : Rx) (op : SmolOp) (s' : Smol) (o : List Obs) (h : s.Rxed r)
    (hs : s.step op = some (s', o)) : s'.Rxed (smolRxStep r (op, o)) := by
  obtain ⟨rest, h1, h2⟩ := h
  -- nothing read, the connection stays or is over
  have keep : ∀ {s' : Smol} {o : List Obs} {op : SmolOp}, smolRxStep r (op, o) = { r with packets := r.packets ++ readIn o } →
      readIn o = [] → (s'.network = s.network ∨ s'.network = none) → s'.Rxed (smolRxStep r (op, o)) := by
    intro s' o op e1 e2 e3
    rw [e1, e2, List.append_nil]
    exact ⟨rest, h1, by rcases e3 with e | e <;> simp [e, h2]⟩
  cases op with
  | client op =>
    simp only [step] at hs
    split at hs
    · split at hs
      · cases hs; exact keep rfl rfl (.inl rfl)
      · cases hs
    · cases hs
  | dropNetwork =>
    simp only [step] at hs
    split at hs
    · cases hs
    · split at hs
      · cases hs; exact keep rfl rfl (.inr rfl)
      · cases hs
  | connect i =>
    rcases connect_took hs with ⟨e1, e2⟩ | ⟨c, b, e1, e2, e3, e4⟩
    · simp only [smolRxStep, e1]
      exact ⟨rest, h1, by rcases e2 with e | e <;> simp [e, h2]⟩
    · simp only [smolRxStep, e1, e2]
      exact ⟨b, .cons e3 (.nil _), .inr e4⟩
  | start =>
    simp only [step] at hs
    split at hs
    · split at hs <;> cases hs <;> exact keep rfl rfl (.inl rfl)
    · cases hs
  | cancel =>
    simp only [step] at hs
    split at hs
    · cases hs; exact keep rfl rfl (.inl rfl)
    · cases hs
  | turn b io T =>
    simp only [step, turn] at hs
    split at hs
    · rename_i buffer hb
      have hrest : buffer = rest := by simpa [hb] using h2
      rw [hrest] at hb hs
      split at hs
      · have none_of : ∀ {r' : Option (Smol × List Obs)} {b : SmolBranch}, Took r' [] rest → r' = some (s', o) →
            smolRxStep r (.turn b io T, o) = { r with packets := r.packets ++ readIn o } →
            s'.Rxed (smolRxStep r (.turn b io T, o)) := by
          intro r' b ht he e1
          obtain ⟨e2, e3⟩ := ht _ _ he
          exact keep e1 e2 (by rw [hb]; exact e3)
        cases b with
        | read chunk =>
          simp only at hs
          rcases onRead_took (s := { s with now := T.second }) (buffer := rest) (chunk := chunk) (io := io) (T := T) with
            ⟨p, rest', hp, ht⟩ | ht
          · obtain ⟨e2, e3⟩ := ht _ _ hs
            refine ⟨rest', ?_, e3.symm⟩
            simp only [smolRxStep, e2]
            exact (h1.more BufferPacket.more).append (.cons hp (.nil _))
          · obtain ⟨e2, e3⟩ := ht _ _ hs
            refine ⟨rest ++ chunk, ?_, e3.symm⟩
            simp only [smolRxStep, e2, List.append_nil]
            exact h1.more BufferPacket.more
        | readError => exact none_of (took_finish rfl) hs rfl
        | outgoing => exact none_of (onOutgoing_took (s := { s with now := T.second }) hb) hs rfl
        | timer => exact none_of (onTimer_took (s := { s with now := T.second }) hb) hs rfl
      · cases hs
    · cases hs

theorem Smol.rxed (checks : Bool) (o : Options) (t : Nat) (ops : List SmolOp) :
    (smol checks o t ops).Rxed (smolRx checks o t ops) :=
  log_induct smolRxStep Smol.Rxed rxed_step ops _ _ ⟨[], .nil _, .inl rfl⟩

/-! ## tokio -/

/-- the step read these packets, and the bytes not consumed are what is given, or the connection is over -/
def Tokio.Took (r : Option (Tokio × List Obs)) (ps : List Packet) (b : Bytes) : Prop :=
  ∀ s' obs, r = some (s', obs) → readIn obs = ps ∧ ((∃ eof, s'.network = some ⟨b, eof⟩) ∨ s'.network = none)

theorem Tokio.took_finish {s : Tokio} {obs : List Obs} {e : End} {ps : List Packet} {b : Bytes} (h : readIn obs = ps) :
    Took (some (s.finish obs e)) ps b := by
  intro s' o he
  simp only [finish, Option.some.injEq, Prod.mk.injEq] at he
  obtain ⟨rfl, rfl⟩ := he
  exact ⟨by simp [readIn_append, h], .inr rfl⟩

theorem Tokio.took_some {s : Tokio} {obs : List Obs} {ps : List Packet} {c : TokioConn} (h : readIn obs = ps)
    (hb : s.network = some c) : Took (some (s, obs)) ps c.input := by
  intro s' o he
  cases he
  exact ⟨h, .inl ⟨_, hb⟩⟩

theorem Tokio.took_none {ps : List Packet} {b : Bytes} : Took none ps b := by intro s' o h; cases h

theorem Tokio.onPacket_took {s : Tokio} {p : Packet} {io : Bool} {T : Times} {c : TokioConn} (hb : s.network = some c) :
    Took (s.onPacket p io T) [p] c.input := by
  simp only [onPacket]
  split
  · exact took_some rfl hb
  · exact took_finish rfl
  · split
    · rename_i reply shown _
      split
      · cases shown <;> exact took_some rfl hb
      · split
        · cases shown <;> exact took_some rfl hb
        · cases shown <;> exact took_finish rfl
    · exact took_finish rfl
    · exact took_finish rfl
    · exact took_none

theorem Tokio.onOutgoing_took {s : Tokio} {io : Bool} {T : Times} {c : TokioConn} (hb : s.network = some c) :
    Took (s.onOutgoing io T) [] c.input := by
  simp only [onOutgoing]
  split
  · split
    · exact took_finish rfl
    · exact took_none
  · split
    · split
      · exact took_finish rfl
      · exact took_none
    · split
      · split
        · exact took_finish rfl
        · exact took_some rfl hb
      · exact took_finish rfl
      · exact took_finish rfl
      · exact took_none

theorem Tokio.onTimer_took {s : Tokio} {await : Option Nat} {io : Bool} {T : Times} {c : TokioConn}
    (hb : s.network = some c) : Took (s.onTimer await io T) [] c.input := by
  simp only [onTimer]
  split
  · split
    · split
      · split
        · exact took_some rfl hb
        · exact took_finish rfl
      · exact took_none
    · split
      · exact took_finish rfl
      · exact took_finish rfl
  · exact took_none

theorem Tokio.onRead_took {s : Tokio} {c : TokioConn} {io : Bool} {T : Times} (hb : s.network = some c) :
    (∃ p rest, StreamPacket c.input p rest ∧ Took (s.onRead c io T) [p] rest) ∨ Took (s.onRead c io T) [] c.input := by
  simp only [onRead]
  split
  · rename_i p rest hp
    exact .inl ⟨p, rest, hp, onPacket_took (c := { c with input := rest }) rfl⟩
  · exact .inr (took_finish rfl)
  · split
    · exact .inr (took_finish rfl)
    · exact .inr took_none
  · exact .inr (took_finish rfl)

theorem hasConnected_writePackets (ok : Nat → Bool) (T : Times) (n : Nat) (ps : List Packet) :
    hasConnected (Tokio.writePackets ok T n ps) = false := by
  obtain ⟨ws, -, h⟩ := Tokio.writePackets_wrotes ok T ps n
  rw [h]
  simp [hasConnected, wrotes]

theorem readIn_writePackets (ok : Nat → Bool) (T : Times) (n : Nat) (ps : List Packet) :
    readIn (Tokio.writePackets ok T n ps) = [] := by
  obtain ⟨ws, -, h⟩ := Tokio.writePackets_wrotes ok T ps n
  rw [h]
  exact readIn_writes _ _ _

theorem Tokio.connect_took {s s' : Tokio} {i : TokioConnect} {obs : List Obs} (h : s.connect i = some (s', obs)) :
    (hasConnected obs = false ∧ (s'.network = s.network ∨ s'.network = none)) ∨
    (∃ c b eof, hasConnected obs = true ∧ readIn obs = [.connAck c] ∧ StreamPacket i.bytes (.connAck c) b ∧
      s'.network = some ⟨b, eof⟩) := by
  simp only [connect] at h
  split at h
  · split at h
    · simp only [Option.some.injEq, Prod.mk.injEq] at h
      obtain ⟨rfl, rfl⟩ := h
      exact .inl ⟨rfl, .inl rfl⟩
    · split at h
      · rename_i c buffer hp
        split at h
        · simp only [established] at h
          split at h
          · split at h
            · simp only [Option.some.injEq, Prod.mk.injEq] at h
              obtain ⟨rfl, rfl⟩ := h
              exact .inr ⟨c, buffer, _, by simp [hasConnected], by simp [readIn_append, readIn_writePackets], hp, rfl⟩
            · simp only [Option.some.injEq, Prod.mk.injEq] at h
              obtain ⟨rfl, rfl⟩ := h
              refine .inl ⟨?_, .inl rfl⟩
              simp only [hasConnected_append, hasConnected_writePackets]
              rfl
          · simp only [Option.some.injEq, Prod.mk.injEq] at h
            obtain ⟨rfl, rfl⟩ := h
            exact .inl ⟨rfl, .inl rfl⟩
          · simp only [Option.some.injEq, Prod.mk.injEq] at h
            obtain ⟨rfl, rfl⟩ := h
            exact .inl ⟨rfl, .inr rfl⟩
          · simp at h
        · simp only [Option.some.injEq, Prod.mk.injEq] at h
          obtain ⟨rfl, rfl⟩ := h
          exact .inl ⟨rfl, .inl rfl⟩
      · simp only [Option.some.injEq, Prod.mk.injEq] at h
        obtain ⟨rfl, rfl⟩ := h
        exact .inl ⟨rfl, .inl rfl⟩
      · simp only [Option.some.injEq, Prod.mk.injEq] at h
        obtain ⟨rfl, rfl⟩ := h
        exact .inl ⟨rfl, .inl rfl⟩
      · split at h
        · simp only [Option.some.injEq, Prod.mk.injEq] at h
          obtain ⟨rfl, rfl⟩ := h
          exact .inl ⟨rfl, .inl rfl⟩
        · cases h
      · simp only [Option.some.injEq, Prod.mk.injEq] at h
        obtain ⟨rfl, rfl⟩ := h
        exact .inl ⟨rfl, .inr rfl⟩
  · simp at h

/-- if no read was abandoned with bytes in hand: what has arrived is the packets read and the bytes not consumed -/
def Tokio.Rxed (s : Tokio) (r : Rx) : Prop :=
  r.taken = 0 → ∃ rest, Stream StreamPacket r.bytes r.packets rest ∧
    (s.network = none ∨ ∃ eof, s.network = some ⟨rest, eof⟩)

theorem Tokio.rxed_step (s : Tokio) (r : Rx) (op : TokioOp) (s' : Tokio) (o : List Obs) (h : s.Rxed r)
    (hs : s.step op = some (s', o)) : s'.Rxed (tokioRxStep r (op, o)) := by
  -- nothing read, the connection stays or is over
  have keep : ∀ {s' : Tokio} {r' : Rx}, r'.bytes = r.bytes → r'.packets = r.packets → r'.taken = r.taken →
      (s'.network = s.network ∨ s'.network = none) → s'.Rxed r' := by
    intro s' r' e1 e2 e3 e4 h0
    obtain ⟨rest, h1, h2⟩ := h (e3 ▸ h0)
    refine ⟨rest, by rw [e1, e2]; exact h1, ?_⟩
    rcases e4 with e | e
    · rw [e]; exact h2
    · exact .inl e
  cases op with
  | client op =>
    simp only [step] at hs
    split at hs
    · split at hs
      · cases hs; exact keep rfl (List.append_nil _) rfl (.inl rfl)
      · cases hs
    · cases hs
  | dropNetwork =>
    simp only [step] at hs
    split at hs
    · split at hs
      · cases hs; exact keep rfl (List.append_nil _) rfl (.inr rfl)
      · cases hs
    · cases hs
  | connect i =>
    rcases connect_took hs with ⟨e1, e2⟩ | ⟨c, b, eof, e1, e2, e3, e4⟩
    · simp only [tokioRxStep, e1]
      exact keep rfl rfl rfl e2
    · simp only [tokioRxStep, e1, e2]
      exact fun _ => ⟨b, .cons e3 (.nil _), .inr ⟨eof, e4⟩⟩
  | start =>
    simp only [step] at hs
    split at hs
    · split at hs <;> cases hs <;> exact keep rfl (List.append_nil _) rfl (.inl rfl)
    · cases hs
  | arrive bs =>
    simp only [step] at hs
    split at hs
    · rename_i c hc
      split at hs
      · cases hs
      · cases hs
        intro h0
        obtain ⟨rest, h1, h2⟩ := h h0
        rw [hc] at h2
        simp only [reduceCtorEq, Option.some.injEq, false_or] at h2
        obtain ⟨eof, rfl⟩ := h2
        refine ⟨rest ++ bs, ?_, .inr ⟨_, rfl⟩⟩
        simp only [tokioRxStep, readIn_nil, List.append_nil]
        exact h1.more StreamPacket.more
    · cases hs
  | close =>
    simp only [step] at hs
    split at hs
    · rename_i c hc
      cases hs
      intro h0
      obtain ⟨rest, h1, h2⟩ := h h0
      rw [hc] at h2
      simp only [reduceCtorEq, Option.some.injEq, false_or] at h2
      obtain ⟨eof, rfl⟩ := h2
      refine ⟨rest, ?_, .inr ⟨_, rfl⟩⟩
      simpa [tokioRxStep] using h1
    · cases hs
  | cancel lost =>
    simp only [step] at hs
    split at hs
    · rename_i c _ hc
      split at hs
      · cases hs
        intro h0
        have h0 : r.taken + lost = 0 := h0
        obtain rfl : lost = 0 := by omega
        obtain ⟨rest, h1, h2⟩ := h (by omega)
        rw [hc] at h2
        simp only [reduceCtorEq, Option.some.injEq, false_or] at h2
        obtain ⟨eof, rfl⟩ := h2
        refine ⟨rest, ?_, .inr ⟨_, rfl⟩⟩
        simpa [tokioRxStep] using h1
      · cases hs
    · cases hs
  | turn b lost io T =>
    simp only [step, turn] at hs
    split at hs
    · rename_i await c _ hc
      split at hs
      · -- what the branches other than reading do
        have other : ∀ {f : Tokio → Option (Tokio × List Obs)} {r' : Rx},
            (∀ {s : Tokio} {c : TokioConn}, s.network = some c → Took (f s) [] c.input) →
            (if canLose c lost = true then
              f { s with now := T.second, network := some { c with input := c.input.drop lost } } else none) = some (s', o) →
            r' = { r with packets := r.packets ++ readIn o, taken := r.taken + lost } → s'.Rxed r' := by
          intro f r' ht he e h0
          subst e
          have h0 : r.taken + lost = 0 := h0
          obtain rfl : lost = 0 := by omega
          obtain ⟨rest, h1, h2⟩ := h (by omega)
          rw [hc] at h2
          simp only [reduceCtorEq, Option.some.injEq, false_or] at h2
          obtain ⟨eof, rfl⟩ := h2
          split at he
          · obtain ⟨e2, e3⟩ := ht (c := ⟨rest, eof⟩) rfl _ _ he
            exact ⟨rest, by simpa [e2] using h1, e3.symm⟩
          · cases he
        cases b with
        | read =>
          intro h0
          obtain ⟨rest, h1, h2⟩ := h h0
          rw [hc] at h2
          simp only [reduceCtorEq, Option.some.injEq, false_or] at h2
          obtain ⟨eof, rfl⟩ := h2
          rcases onRead_took (s := { s with now := T.second }) (io := io) (T := T) hc with ⟨p, rest', hp, ht⟩ | ht
          · obtain ⟨e2, e3⟩ := ht _ _ hs
            refine ⟨rest', ?_, e3.symm⟩
            simp only [tokioRxStep, e2]
            exact h1.append (.cons hp (.nil _))
          · obtain ⟨e2, e3⟩ := ht _ _ hs
            refine ⟨rest, ?_, e3.symm⟩
            simpa [tokioRxStep, e2] using h1
        | readError =>
          obtain ⟨e2, e3⟩ := (took_finish rfl : Took _ [] []) _ _ hs
          simp only [finish, Option.some.injEq, Prod.mk.injEq] at hs
          obtain ⟨rfl, rfl⟩ := hs
          exact keep rfl (List.append_nil _) rfl (.inr rfl)
        | outgoing => exact other (f := fun s => s.onOutgoing io T) onOutgoing_took hs rfl
        | timer => exact other (f := fun s => s.onTimer await io T) onTimer_took hs rfl
      · cases hs
    · cases hs

theorem Tokio.rxed (o : Options) (t : Nat) (ops : List TokioOp) : (tokio o t ops).Rxed (tokioRx o t ops) :=
  log_induct tokioRxStep Tokio.Rxed rxed_step ops _ _ fun _ => ⟨[], .nil _, .inl rfl⟩

/-! ## progress -/

theorem log_append {S O : Type} (step : S → O → Option (S × List Obs)) (s : S) (a b : List O) :
    log step s (a ++ b) = log step s a ++ log step (history step s a).1 b := by
  induction a generalizing s with
  | nil => rfl
  | cons op a ih =>
    simp only [List.cons_append, log, history]
    cases e : step s op with
    | none => exact ih s
    | some x => obtain ⟨s', o⟩ := x; simp [ih s']

theorem _root_.Mqrstt.Spec.Encodings.stream {R : Bytes → Packet → Bytes → Prop}
    (ext : ∀ b p b' m, R b p b' → R (b ++ m) p (b' ++ m)) {fs : List (Bytes × Packet)} (h : Encodings R fs) (tail : Bytes) :
    Stream R ((fs.map (·.1)).flatten ++ tail) (fs.map (·.2)) tail := by
  induction fs with
  | nil => exact .nil _
  | cons x fs ih =>
    simp only [List.map_cons, List.flatten_cons, List.append_assoc]
    refine .cons ?_ (ih fun y hy => h y (by simp [hy]))
    have := ext _ _ _ ((fs.map (·.1)).flatten ++ tail) (h x (by simp))
    simpa using this

theorem _root_.Mqrstt.Spec.Stream.unique {R : Bytes → Packet → Bytes → Prop}
    (fn : ∀ b p b' q c', R b p b' → R b q c' → p = q ∧ b' = c') {bs rest rest' : Bytes} {ps : List Packet}
    (h : Stream R bs ps rest) (h' : Stream R bs ps rest') : rest = rest' := by
  induction h with
  | nil => cases h'; rfl
  | cons h _ ih =>
    cases h' with
    | cons g gs =>
      obtain ⟨-, rfl⟩ := fn _ _ _ _ _ h g
      exact ih gs

theorem Smol.onPacket_some {s : Smol} (ha : s.sys.alive = true) (p : Packet) (io : Bool) (T : Times) :
    ∃ s' obs, s.onPacket p io T = some (s', obs) := by
  simp only [onPacket]
  split
  · exact ⟨_, _, rfl⟩
  · exact ⟨_, _, rfl⟩
  · rw [Sys.step_receive ha]
    generalize Handler.incomingState s.sys.handler.state p = out
    obtain ⟨st, res⟩ := out
    rcases res with f | ⟨reply, shown⟩
    · cases f <;> exact ⟨_, _, rfl⟩
    · exact ⟨_, _, rfl⟩

theorem Tokio.onPacket_some {s : Tokio} (ha : s.sys.alive = true) (p : Packet) (io : Bool) (T : Times) :
    ∃ s' obs, s.onPacket p io T = some (s', obs) := by
  simp only [onPacket]
  split
  · exact ⟨_, _, rfl⟩
  · exact ⟨_, _, rfl⟩
  · rw [Sys.step_receive ha]
    generalize Handler.incomingState s.sys.handler.state p = out
    obtain ⟨st, res⟩ := out
    rcases res with f | ⟨reply, shown⟩
    · cases f <;> exact ⟨_, _, rfl⟩
    · simp only
      cases reply with
      | none => exact ⟨_, _, rfl⟩
      | some r =>
        simp only
        split <;> exact ⟨_, _, rfl⟩

/-- only reading and connecting read -/
theorem Smol.silent {s s' : Smol} {op : SmolOp} {o : List Obs} (h : s.step op = some (s', o))
    (hop : ∀ i, op ≠ .connect i) (hop2 : ∀ c io T, op ≠ .turn (.read c) io T) : readIn o = [] := by
  cases op with
  | client op =>
    simp only [step] at h
    split at h
    · split at h
      · cases h; rfl
      · cases h
    · cases h
  | dropNetwork =>
    simp only [step] at h
    split at h
    · cases h
    · split at h
      · cases h; rfl
      · cases h
  | connect i => exact absurd rfl (hop i)
  | start =>
    simp only [step] at h
    split at h
    · split at h <;> cases h <;> rfl
    · cases h
  | cancel =>
    simp only [step] at h
    split at h
    · cases h; rfl
    · cases h
  | turn b io T =>
    simp only [step, turn] at h
    split at h
    · rename_i buffer hb
      split at h
      · cases b with
        | read c => exact absurd rfl (hop2 c io T)
        | readError => exact ((took_finish rfl : Took _ [] []) _ _ h).1
        | outgoing => exact (onOutgoing_took (s := { s with now := T.second }) hb _ _ h).1
        | timer => exact (onTimer_took (s := { s with now := T.second }) hb _ _ h).1
      · cases h
    · cases h

end Mqrstt
