import Verif.Proof.Bytes
/-! # The blocking read of smol under fragmentation -/

namespace Mqrstt
open Mqrstt.Spec _root_.Spec
namespace SmolStream

theorem readRequired_spec (required : Nat) (chunks : List Bytes) (hne : ∀ c ∈ chunks, c ≠ []) (total : Nat) (b : Bytes) :
    (readRequired required total b chunks = .waiting ∧ (chunks = [] ∨ total + chunks.flatten.length < required)) ∨
    ∃ used last rest, chunks = used ++ last :: rest ∧ (used = [] ∨ total + used.flatten.length < required) ∧
      required ≤ total + used.flatten.length + last.length ∧
      readRequired required total b chunks = .done (b ++ used.flatten ++ last, rest) := by
  induction chunks generalizing total b with
  | nil => exact .inl ⟨rfl, .inl rfl⟩
  | cons c cs ih =>
    simp only [readRequired]
    rw [if_neg (hne c (by simp))]
    split
    · rename_i h
      exact .inr ⟨[], c, cs, rfl, .inl rfl, by simpa using h, by simp⟩
    · rename_i h
      rcases ih (fun x hx => hne x (by simp [hx])) (total + c.length) (b ++ c) with ⟨h1, h2⟩ | ⟨used, last, rest, h1, h2, h3, h4⟩
      · refine .inl ⟨h1, .inr ?_⟩
        rcases h2 with rfl | h2
        · simp; omega
        · simp at h2 ⊢; omega
      · refine .inr ⟨c :: used, last, rest, by rw [h1]; rfl, .inr ?_, ?_, by rw [h4]; simp⟩
        · rcases h2 with rfl | h2
          · simp; omega
          · simp at h2 ⊢; omega
        · simp at h3 ⊢; omega

/-- the frame that is read: a header and a body that decodes to a packet -/
structure Incoming (f : Bytes) (hl rem : Nat) (p : Packet) : Prop where
  len : f.length = hl + rem
  header : ∃ h, FixedHeader.read f = .ok (h, hl) ∧ h.remLen = rem
  short : ∀ b m, b ++ m = f → b.length < hl → ∃ n, FixedHeader.read b = .error (.insufficientBytes n) ∧ 1 ≤ n ∧
    n ≤ hl - b.length
  enough : ∀ b m h, b ++ m = f → FixedHeader.read f = .ok (h, hl) → hl ≤ b.length → FixedHeader.read b = .ok (h, hl)
  packet : BufferPacket f p []

theorem Incoming.of_frame {first : UInt8} {len body : Bytes} {p : Packet} (hv : IsVbi len)
    (hb : vbiValue len = body.length) (hp : BufferPacket (first :: (len ++ body)) p []) :
    Incoming (first :: (len ++ body)) (1 + len.length) body.length p := by
  have hpos := VarInt.isVbi_pos hv
  have hh : FixedHeader.read (first :: (len ++ body)) = _ := FixedHeader.read_isVbi first hv body
  have ht : ∃ t flags, PacketType.fromFirstByte first = .ok (t, flags) := by
    have h : Packet.read _ = _ := hp
    rw [Packet.read, hh] at h
    cases ht : PacketType.fromFirstByte first with
    | error e => rw [ht] at h; cases h
    | ok x => exact ⟨x.1, x.2, rfl⟩
  obtain ⟨t, flags, ht⟩ := ht
  refine ⟨by simp; omega, ⟨⟨t, flags, vbiValue len⟩, by rw [hh, ht], hb⟩, ?_, ?_, hp⟩
  · intro b m e hlt
    rcases Nat.lt_or_ge b.length 2 with h2 | h2
    · exact ⟨2 - b.length, by rw [FixedHeader.read.eq_def, if_pos h2], by omega, by omega⟩
    · cases b with
      | nil => simp at h2
      | cons x g =>
        simp only [List.cons_append, List.cons.injEq] at e
        obtain ⟨rfl, e⟩ := e
        simp only [List.length_cons] at h2 hlt
        obtain ⟨len2, rfl⟩ : g <+: len := List.prefix_of_prefix_length_le ⟨m, e⟩ (List.prefix_append _ _) (by omega)
        have hl2 : len2 ≠ [] := by rintro rfl; simp at hlt; omega
        have hm := VarInt.remLen_prefix hv hl2
        refine ⟨1, ?_, Nat.le_refl _, by simp only [List.length_cons]; omega⟩
        rw [FixedHeader.read, if_neg (by simp; omega)]
        simp only [ht, hm]
  · intro b m h e hf hle
    rw [hh, ht] at hf
    simp only [Except.ok.injEq, Prod.mk.injEq, and_true] at hf
    subst hf
    cases b with
    | nil => simp at hle
    | cons x g =>
      simp only [List.cons_append, List.cons.injEq] at e
      obtain ⟨rfl, e⟩ := e
      simp only [List.length_cons] at hle
      obtain ⟨g2, rfl⟩ : len <+: g := List.prefix_of_prefix_length_le (List.prefix_append _ _) ⟨m, e⟩ (by omega)
      rw [FixedHeader.read_isVbi _ hv, ht]

/-- a way of splitting what follows `b`, counted from the start of the packet -/
def CutsAt (b : Bytes) (chunks : List Bytes) (n : Nat) : Prop :=
  ∃ a c, chunks = a ++ c ∧ c ≠ [] ∧ b.length + a.flatten.length = n

theorem CutsAt.later {b : Bytes} {used : List Bytes} {last : Bytes} {rest : List Bytes} {n : Nat}
    (h : CutsAt (b ++ used.flatten ++ last) rest n) : CutsAt b (used ++ last :: rest) n := by
  obtain ⟨a, c, rfl, hc, e⟩ := h
  refine ⟨used ++ last :: a, c, by simp, hc, ?_⟩
  simp at e ⊢
  omega

/-- a cut is in the part used, or later -/
theorem CutsAt.split {b : Bytes} {used : List Bytes} {last : Bytes} {rest : List Bytes} {n : Nat}
    (h : CutsAt b (used ++ last :: rest) n) :
    (∃ a, a <+: used ∧ b.length + a.flatten.length = n) ∨ CutsAt (b ++ used.flatten ++ last) rest n := by
  obtain ⟨a, c, e, hc, hn⟩ := h
  rcases List.append_eq_append_iff.1 e with ⟨x, hx, hy⟩ | ⟨x, hx, hy⟩
  · cases x with
    | nil =>
      simp only [List.append_nil] at hx
      exact .inl ⟨a, ⟨[], by rw [hx]; simp⟩, hn⟩
    | cons y x =>
      simp only [List.cons_append, List.cons.injEq] at hy
      obtain ⟨rfl, rfl⟩ := hy
      refine .inr ⟨x, c, rfl, hc, ?_⟩
      rw [hx] at hn
      simp at hn ⊢
      omega
  · exact .inl ⟨a, ⟨x, hx.symm⟩, hn⟩

def GoodFrom (b : Bytes) (hl rem : Nat) (chunks : List Bytes) : Prop :=
  ∀ n, CutsAt b chunks n → n < hl ∨ n < rem ∨ (n = rem ∧ ∀ m, CutsAt b chunks m → m < hl ∨ rem ≤ m)

theorem prefix_length {α} {used a : List (List α)} (h : a <+: used) : a.flatten.length ≤ used.flatten.length := by
  obtain ⟨x, rfl⟩ := h
  simp

theorem bufferPacket_whole {f b extra : Bytes} {hl rem : Nat} {p : Packet} (hi : Incoming f hl rem p) (hb : b = f ++ extra)
    {h : FixedHeader} (hh : FixedHeader.read f = .ok (h, hl)) (hr : h.remLen = rem) (chunks : List Bytes) :
    readBody h hl b chunks = .done (p, extra, chunks) := by
  subst hb
  have hp := hi.packet
  have hp : Packet.read f = (.ok p, []) := hp
  rw [Packet.read, hh] at hp
  simp only at hp
  have hle : hl ≤ f.length := by have := hi.len; omega
  have hlen := hi.len
  rw [if_neg (by omega)] at hp
  simp only [Prod.mk.injEq] at hp
  have hd : (f ++ extra).drop hl = f.drop hl ++ extra := List.drop_append_of_le_length hle
  have hfl : (f.drop hl).length = h.remLen := by rw [List.length_drop]; omega
  simp only [readBody, hd]
  rw [if_neg (by rw [List.length_append]; omega)]
  rw [show (f.drop hl ++ extra).take h.remLen = f.drop hl by rw [← hfl, List.take_left]]
  rw [show (f.drop hl ++ extra).drop h.remLen = extra by rw [← hfl, List.drop_left]]
  rw [show (f.drop hl).take h.remLen = f.drop hl by rw [← hfl, List.take_length]] at hp
  simp only [decode]
  have hp := hp.1
  split at hp
  · rename_i e; cases hp; rw [e]
  · cases hp

theorem read_good (checks : Bool) {f : Bytes} {hl rem : Nat} {p : Packet} (hi : Incoming f hl rem p) (fuel : Nat) (b : Bytes)
    (chunks : List Bytes) (extra : Bytes) (hfuel : chunks.length + 1 ≤ fuel) (hne : ∀ c ∈ chunks, c ≠ [])
    (hw : b ++ chunks.flatten = f ++ extra) (hlast : ∀ n, CutsAt b chunks n → n < f.length)
    (hg : GoodFrom b hl rem chunks) : read checks fuel b chunks = .done (p, extra, []) := by
  induction fuel generalizing b chunks with
  | zero => omega
  | succ fuel ih =>
    obtain ⟨h, hh, hrem⟩ := hi.header
    have hlen := hi.len
    have hwl := congrArg List.length hw
    simp only [List.length_append] at hwl
    -- `b` is a proper prefix of the packet, or there are no more chunks
    have hcut : chunks ≠ [] → b.length < f.length := fun hc => hlast _ ⟨[], chunks, rfl, hc, by simp⟩
    rcases Nat.lt_or_ge b.length hl with hlt | hge
    · obtain ⟨m, hm⟩ : b <+: f := List.prefix_of_prefix_length_le ⟨_, hw⟩ (List.prefix_append _ _) (by omega)
      obtain ⟨n, e, hn1, hn2⟩ := hi.short b m hm hlt
      simp only [read, e]
      rcases readRequired_spec n chunks hne 0 b with ⟨h1, h2⟩ | ⟨used, last, rest, rfl, h2, h3, h4⟩
      · exfalso
        rcases h2 with rfl | h2
        · simp at hwl; omega
        · omega
      · rw [h4]
        simp only
        apply ih
        · simp at hfuel; omega
        · exact fun c hc => hne c (by simp [hc])
        · rw [← hw]; simp
        · exact fun n hn => hlast n hn.later
        · intro n hn
          rcases hg n hn.later with h | h | ⟨h, h'⟩
          · exact .inl h
          · exact .inr (.inl h)
          · exact .inr (.inr ⟨h, fun m hm => h' m hm.later⟩)
    · by_cases hc : chunks = []
      · subst hc
        simp only [List.flatten_nil, List.append_nil] at hw
        subst hw
        have hb := FixedHeader.read_more hh extra
        simp only [read, hb]
        rw [if_neg (by simp at hwl ⊢; omega)]
        exact bufferPacket_whole hi rfl hh hrem []
      · have hlt := hcut hc
        obtain ⟨m, hm⟩ : b <+: f := List.prefix_of_prefix_length_le ⟨_, hw⟩ (List.prefix_append _ _) (by omega)
        have hb := hi.enough b m h hm hh hge
        simp only [read, hb]
        rw [if_pos (by omega)]
        have hble : b.length ≤ rem := by
          rcases hg b.length ⟨[], chunks, rfl, hc, by simp⟩ with h | h | ⟨h, -⟩ <;> omega
        rw [show usizeSub checks h.remLen b.length = some (rem - b.length) by rw [hrem, usizeSub, if_pos hble]]
        simp only
        rcases readRequired_spec (rem - b.length) chunks hne 0 b with ⟨h1, h2⟩ | ⟨used, last, rest, rfl, h2, h3, h4⟩
        · exfalso
          rcases h2 with h2 | h2
          · exact hc h2
          · omega
        · rw [h4]
          have hlp : 0 < last.length := List.length_pos_iff.2 (hne last (by simp))
          have hr0 : rest = [] := by
            refine Classical.byContradiction fun hr => ?_
            have hcr : CutsAt b (used ++ last :: rest) (b.length + (used.flatten.length + last.length)) :=
              ⟨used ++ [last], rest, by simp, hr, by simp⟩
            have hl1 := hlast _ hcr
            rcases hg _ hcr with h | h | ⟨h, h'⟩
            · omega
            · omega
            · rcases h' b.length ⟨[], _, rfl, by simp, by simp⟩ with h | h <;> omega
          subst hr0
          simp only
          refine bufferPacket_whole hi ?_ hh hrem []
          rw [← hw]; simp

/-- with overflow checks only good ways of splitting lead to a packet -/
theorem read_good_of_done {f : Bytes} {hl rem : Nat} {p q : Packet} (hi : Incoming f hl rem p) (fuel : Nat) (b : Bytes)
    (chunks : List Bytes) (extra extra' : Bytes) (hne : ∀ c ∈ chunks, c ≠ []) (hw : b ++ chunks.flatten = f ++ extra)
    (hlast : ∀ n, CutsAt b chunks n → n < f.length) (hd : read true fuel b chunks = .done (q, extra', [])) :
    GoodFrom b hl rem chunks := by
  induction fuel generalizing b chunks with
  | zero => cases hd
  | succ fuel ih =>
    obtain ⟨h, hh, hrem⟩ := hi.header
    have hlen := hi.len
    have hwl := congrArg List.length hw
    simp only [List.length_append] at hwl
    rcases Nat.lt_or_ge b.length hl with hlt | hge
    · obtain ⟨m, hm⟩ : b <+: f := List.prefix_of_prefix_length_le ⟨_, hw⟩ (List.prefix_append _ _) (by omega)
      obtain ⟨n, e, hn1, hn2⟩ := hi.short b m hm hlt
      simp only [read, e] at hd
      rcases readRequired_spec n chunks hne 0 b with ⟨h1, h2⟩ | ⟨used, last, rest, rfl, h2, h3, h4⟩
      · rw [h1] at hd; cases hd
      · rw [h4] at hd
        simp only at hd
        have hg := ih _ _ (fun c hc => hne c (by simp [hc])) (by rw [← hw]; simp) (fun n hn => hlast n hn.later) hd
        -- the cuts before are inside the header
        have hbefore : ∀ a, a <+: used → b.length + a.flatten.length < hl := by
          intro a ha
          have := prefix_length ha
          rcases h2 with rfl | h2
          · have : a = [] := by simpa using ha
            subst this
            simpa using hlt
          · omega
        intro k hk
        rcases hk.split with ⟨a, ha, rfl⟩ | hk
        · exact .inl (hbefore a ha)
        · rcases hg k hk with h | h | ⟨h, h'⟩
          · exact .inl h
          · exact .inr (.inl h)
          · refine .inr (.inr ⟨h, fun j hj => ?_⟩)
            rcases hj.split with ⟨a, ha, rfl⟩ | hj
            · exact .inl (hbefore a ha)
            · exact h' j hj
    · by_cases hc : chunks = []
      · subst hc
        rintro n ⟨a, c, e, hc, -⟩
        simp at e
        exact absurd e.2 hc
      · have hlt : b.length < f.length := hlast _ ⟨[], chunks, rfl, hc, by simp⟩
        obtain ⟨m, hm⟩ : b <+: f := List.prefix_of_prefix_length_le ⟨_, hw⟩ (List.prefix_append _ _) (by omega)
        have hb := hi.enough b m h hm hh hge
        simp only [read, hb] at hd
        rw [if_pos (by omega)] at hd
        by_cases hble : b.length ≤ rem
        · rw [show usizeSub true h.remLen b.length = some (rem - b.length) by rw [hrem, usizeSub, if_pos hble]] at hd
          simp only at hd
          rcases readRequired_spec (rem - b.length) chunks hne 0 b with ⟨h1, h2⟩ | ⟨used, last, rest, rfl, h2, h3, h4⟩
          · rw [h1] at hd; cases hd
          · rw [h4] at hd
            simp only at hd
            have hhb := FixedHeader.read_more hb (used.flatten ++ last)
            rw [← List.append_assoc] at hhb
            obtain ⟨hr, -⟩ := readBody_packet hhb hd
            subst hr
            -- a cut is after a part of `used`
            have hcuts : ∀ n, CutsAt b (used ++ [last]) n → ∃ a, a <+: used ∧ b.length + a.flatten.length = n := by
              intro n hn
              rcases hn.split with h | ⟨a, c, e, hc, -⟩
              · exact h
              · simp at e; exact absurd e.2 hc
            rcases h2 with rfl | h2
            · have hall : ∀ n, CutsAt b ([] ++ [last]) n → n = b.length := by
                intro n hn
                obtain ⟨a, ha, rfl⟩ := hcuts n hn
                simp at ha
                simp [ha]
              intro n hn
              have := hall n hn
              subst this
              rcases Nat.lt_or_ge b.length rem with h | h
              · exact .inr (.inl h)
              · refine .inr (.inr ⟨by omega, fun m hm => ?_⟩)
                have := hall m hm
                subst this
                exact .inr h
            · intro n hn
              obtain ⟨a, ha, rfl⟩ := hcuts n hn
              have := prefix_length ha
              exact .inr (.inl (by omega))
        · rw [show usizeSub true h.remLen b.length = none by rw [hrem, usizeSub, if_neg hble]; rfl] at hd
          cases hd

theorem goodFrom_nil {hl rem : Nat} {chunks : List Bytes} (h2 : 0 < hl) : GoodFrom [] hl rem chunks ↔ GoodSplit hl rem chunks := by
  have h1 : ∀ n, IsCut chunks n → CutsAt [] chunks n := by
    rintro n ⟨a, b, e, -, hb, hn⟩
    exact ⟨a, b, e, hb, by simpa using hn⟩
  have h3 : ∀ n, CutsAt [] chunks n → IsCut chunks n ∨ n = 0 := by
    rintro n ⟨a, b, e, hb, hn⟩
    by_cases ha : a = []
    · subst ha; simp at hn; exact .inr hn.symm
    · exact .inl ⟨a, b, e, ha, hb, by simpa using hn⟩
  constructor
  · intro h n hn
    rcases h n (h1 n hn) with h | h | ⟨h, h'⟩
    · exact .inl h
    · exact .inr (.inl h)
    · exact .inr (.inr ⟨h, fun m hm => h' m (h1 m hm)⟩)
  · intro h n hn
    rcases h3 n hn with hn | rfl
    · rcases h n hn with h | h | ⟨h, h'⟩
      · exact .inl h
      · exact .inr (.inl h)
      · refine .inr (.inr ⟨h, fun m hm => ?_⟩)
        rcases h3 m hm with hm | rfl
        · exact h' m hm
        · exact .inl h2
    · exact .inl h2

theorem cutsAt_nil {chunks : List Bytes} {n k : Nat} (hk : 0 < k) (h : ∀ n, IsCut chunks n → n < k) (hn : CutsAt [] chunks n) :
    n < k := by
  obtain ⟨a, b, e, hb, hn⟩ := hn
  by_cases ha : a = []
  · subst ha; simp at hn; omega
  · exact h n ⟨a, b, e, ha, hb, by simpa using hn⟩

end SmolStream

theorem Sys.connAck_some {s : Sys} {c : ConnAck} (ha : s.alive = true) (hc : c.reason = .success) :
    ∃ s' e, s.step (.connAck c) = some (s', e) ∧
      ((∃ ps, e = .connected c ps) ∨ (∃ er, e = .connectError c er) ∨ e = .panicked) := by
  simp only [Sys.step, ha, if_true]
  have h0 : ∀ h : Handler, (s.handler.connAck c) ≠ (h, .ok none) := by
    intro h
    rw [Handler.connAck, if_pos hc]
    split
    · simp
    · split <;> simp
  generalize hx : s.handler.connAck c = x at h0
  obtain ⟨h, r⟩ := x
  rcases r with f | o
  · cases f with
    | err e => exact ⟨_, _, rfl, .inr (.inl ⟨e, rfl⟩)⟩
    | panic => exact ⟨_, _, rfl, .inr (.inr rfl)⟩
  · cases o with
    | none => exact absurd rfl (h0 h)
    | some ps => exact ⟨_, _, rfl, .inl ⟨ps, rfl⟩⟩

theorem Smol.established_some {s : Smol} {c : ConnAck} (ha : s.sys.alive = true) (hc : c.reason = .success) (b : Bytes)
    (i : SmolConnect) (obs : List Obs) : ∃ s' more, s.established c b i obs = some (s', obs ++ more) := by
  simp only [established]
  obtain ⟨sys, e, hs, h⟩ := Sys.connAck_some (s := s.sys) ha hc
  have hs : (s.noteConnAck c i.times.fire).sys.step (.connAck c) = some (sys, e) := hs
  rw [hs]
  rcases h with ⟨ps, rfl⟩ | ⟨er, rfl⟩ | rfl
  · simp only
    split
    · exact ⟨_, _, by rw [List.append_assoc, List.append_assoc]⟩
    · exact ⟨_, _, by rw [List.append_assoc]⟩
  · exact ⟨_, _, rfl⟩
  · exact ⟨_, _, rfl⟩

/-- whatever `connect` reads is what the blocking read returned -/
theorem Smol.connect_read {s s' : Smol} {i : SmolConnect} {obs : List Obs} {p : Packet}
    (h : s.connect i = some (s', obs)) (hr : .read p ∈ obs) :
    ∃ q b, SmolStream.read s.checks (i.chunks.length + 1) [] i.chunks = .done (q, b, []) := by
  simp only [connect] at h
  split at h
  · split at h
    · cases h; simp at hr
    · split at h
      · exact ⟨_, _, ‹_›⟩
      · exact ⟨_, _, ‹_›⟩
      · cases h
      · cases h; simp at hr
      · cases h; simp at hr
      · cases h
  · cases h

end Mqrstt
