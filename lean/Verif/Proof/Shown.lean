import Verif.Proof.Display
import Verif.Spec.Shown
/-!
# Reading the text of a packet back
-/

namespace Mqrstt
open Mqrstt.Spec

/-- what is all `P` ends at the first that is not -/
theorem delim_inj {α : Type} {P : α → Prop} {a b : List α} {c d : α} {x y : List α} (ha : ∀ e ∈ a, P e) (hb : ∀ e ∈ b, P e)
    (hc : ¬P c) (hd : ¬P d) (h : a ++ c :: x = b ++ d :: y) : a = b ∧ c :: x = d :: y := by
  induction a generalizing b with
  | nil =>
    cases b with
    | nil => exact ⟨rfl, h⟩
    | cons e b =>
      simp only [List.nil_append, List.cons_append, List.cons.injEq] at h
      exact absurd (h.1 ▸ hb e (by simp)) hc
  | cons e a ih =>
    cases b with
    | nil =>
      simp only [List.nil_append, List.cons_append, List.cons.injEq] at h
      exact absurd (h.1 ▸ ha e (by simp)) hd
    | cons e' b =>
      simp only [List.cons_append, List.cons.injEq] at h
      obtain ⟨r1, r2⟩ := ih (fun e he => ha e (by simp [he])) (fun e he => hb e (by simp [he])) h.2
      exact ⟨by rw [h.1, r1], r2⟩

theorem bool_inj {a b : Bool} {x y : Bytes} (h : boolText a ++ x = boolText b ++ y) : a = b ∧ x = y := by
  cases a <;> cases b
  · exact ⟨rfl, List.append_cancel_left h⟩
  · exact absurd (List.cons.inj h).1 (by decide)
  · exact absurd (List.cons.inj h).1 (by decide)
  · exact ⟨rfl, List.append_cancel_left h⟩

/-- a decimal digit -/
def IsDigit (b : UInt8) : Prop := 48 ≤ b.toNat ∧ b.toNat ≤ 57

theorem digits_range (n : Nat) : ∀ b ∈ decimal n, IsDigit b := by
  intro b hb
  simp only [decimal, List.mem_map] at hb
  obtain ⟨c, hc, rfl⟩ := hb
  have hd := Nat.isDigit_of_mem_toDigits (by decide) (by decide) hc
  simp only [Char.isDigit, ge_iff_le, Bool.and_eq_true, decide_eq_true_eq] at hd
  have h1 : 48 ≤ c.toNat := hd.1
  have h2 : c.toNat ≤ 57 := hd.2
  simp [IsDigit]
  omega

theorem map_inj_on {α β : Type} {f : α → β} {P : α → Prop} (hf : ∀ a b, P a → P b → f a = f b → a = b) {l m : List α}
    (hl : ∀ a ∈ l, P a) (hm : ∀ a ∈ m, P a) (h : l.map f = m.map f) : l = m := by
  induction l generalizing m with
  | nil => cases m with
    | nil => rfl
    | cons _ _ => simp at h
  | cons a l ih => cases m with
    | nil => simp at h
    | cons b m =>
      simp only [List.map_cons, List.cons.injEq] at h
      rw [hf a b (hl a (by simp)) (hm b (by simp)) h.1, ih (fun a ha => hl a (by simp [ha])) (fun a ha => hm a (by simp [ha])) h.2]

theorem decimal_inj {n m : Nat} (h : decimal n = decimal m) : n = m := by
  have : Nat.toDigits 10 n = Nat.toDigits 10 m := by
    refine map_inj_on (P := fun c => c.isDigit = true) ?_ (fun c hc => Nat.isDigit_of_mem_toDigits (by decide) (by decide) hc)
      (fun c hc => Nat.isDigit_of_mem_toDigits (by decide) (by decide) hc) h
    intro a b ha hb e
    simp only [Char.isDigit, ge_iff_le, Bool.and_eq_true, decide_eq_true_eq] at ha hb
    have a1 : a.toNat ≤ 57 := ha.2
    have b1 : b.toNat ≤ 57 := hb.2
    have e := congrArg UInt8.toNat e
    simp only [UInt8.toNat_ofNat'] at e
    have : a.toNat = b.toNat := by omega
    exact Char.ext (UInt32.toNat_inj.1 this)
  rw [← Nat.ofDigitChars_ten_toDigits (n := n), this, Nat.ofDigitChars_ten_toDigits]

theorem decimal_delim {n m : Nat} {c d : UInt8} {x y : Bytes} (hc : ¬IsDigit c) (hd : ¬IsDigit d)
    (h : decimal n ++ c :: x = decimal m ++ d :: y) : n = m ∧ c :: x = d :: y := by
  obtain ⟨r1, r2⟩ := delim_inj (digits_range n) (digits_range m) hc hd h
  exact ⟨decimal_inj r1, r2⟩

/-! ## Names -/

instance (b : UInt8) : Decidable (IsDigit b) := inferInstanceAs (Decidable (_ ∧ _))

/-- all reason codes -/
def Reason.every : List Reason :=
  [.success, .normalDisconnection, .grantedQoS0, .grantedQoS1, .grantedQoS2, .disconnectWithWillMessage, .noMatchingSubscribers,
    .noSubscriptionExisted, .continueAuthentication, .reAuthenticate, .unspecifiedError, .malformedPacket, .protocolError,
    .implementationSpecificError, .unsupportedProtocolVersion, .clientIdentifierNotValid, .badUsernameOrPassword, .notAuthorized,
    .serverUnavailable, .serverBusy, .banned, .serverShuttingDown, .badAuthenticationMethod, .keepAliveTimeout,
    .sessionTakenOver, .topicFilterInvalid, .topicNameInvalid, .packetIdentifierInUse, .packetIdentifierNotFound,
    .receiveMaximumExceeded, .topicAliasInvalid, .packetTooLarge, .messageRateTooHigh, .quotaExceeded, .administrativeAction,
    .payloadFormatInvalid, .retainNotSupported, .qosNotSupported, .useAnotherServer, .serverMoved,
    .sharedSubscriptionsNotSupported, .connectionRateExceeded, .maximumConnectTime, .subscriptionIdentifiersNotSupported,
    .wildcardSubscriptionsNotSupported]

/-- the reason code with a name -/
def Reason.named (bs : Bytes) : Option Reason := Reason.every.find? fun r => text r.name == bs

theorem Reason.named_name (r : Reason) : Reason.named (text r.name) = some r := by cases r <;> decide

theorem reason_name_inj {r s : Reason} (h : text r.name = text s.name) : r = s := by
  have := Reason.named_name r
  rw [h, Reason.named_name s] at this
  exact (Option.some.inj this).symm

theorem reason_no_paren (r : Reason) : ∀ b ∈ text r.name, b ≠ 41 := by cases r <;> decide
theorem reason_no_colon (r : Reason) : 58 ∉ text r.name := by cases r <;> decide

theorem reason_delim {r s : Reason} {x y : Bytes} (h : text r.name ++ 41 :: x = text s.name ++ 41 :: y) : r = s ∧ x = y := by
  obtain ⟨r1, r2⟩ := delim_inj (P := fun b => b ≠ 41) (reason_no_paren r) (reason_no_paren s) (by simp) (by simp) h
  exact ⟨reason_name_inj r1, (List.cons.inj r2).2⟩

theorem qos_delim {q r : QoS} {x y : Bytes} (h : text q.name ++ 44 :: x = text r.name ++ 44 :: y) : q = r ∧ x = y := by
  have no : ∀ q : QoS, ∀ b ∈ text q.name, b ≠ 44 := by intro q; cases q <;> decide
  obtain ⟨r1, r2⟩ := delim_inj (P := fun b => b ≠ 44) (no q) (no r) (by simp) (by simp) h
  refine ⟨?_, (List.cons.inj r2).2⟩
  cases q <;> cases r <;> first | rfl | exact absurd r1 (by decide)

/-! ## Strings -/

/-- the bytes that are escaped -/
def escaped : List UInt8 := (List.range 32).map UInt8.ofNat ++ [34, 92, 127]

theorem escape_not {b : UInt8} (h : b ∉ escaped) : escapeByte b = [b] := by
  have hb : ∀ n < 32, b ≠ UInt8.ofNat n := fun n hn e =>
    h (List.mem_append_left _ (List.mem_map.2 ⟨n, List.mem_range.2 hn, e.symm⟩))
  have hs : b ≠ 34 ∧ b ≠ 92 ∧ b ≠ 127 := by
    refine ⟨?_, ?_, ?_⟩ <;> (rintro rfl; exact h (by decide))
  have n4 : ¬(b < 32 ∨ b = 127) := by
    rintro (h' | h')
    · exact hb b.toNat (UInt8.lt_iff_toNat_lt.1 h') (by simp)
    · exact hs.2.2 h'
  have n0 : b ≠ 0 := hb 0 (by decide)
  have n1 : b ≠ 9 := hb 9 (by decide)
  have n2 : b ≠ 10 := hb 10 (by decide)
  have n3 : b ≠ 13 := hb 13 (by decide)
  unfold escapeByte
  rw [if_neg n0, if_neg n1, if_neg n2, if_neg n3, if_neg hs.1, if_neg hs.2.1, if_neg n4]

theorem escape_head {b : UInt8} (h : b ∈ escaped) : ∃ t, escapeByte b = 92 :: t := by
  have : ∀ b ∈ escaped, (escapeByte b).head? = some 92 := by decide
  have := this b h
  cases e : escapeByte b with
  | nil => rw [e] at this; simp at this
  | cons c t => rw [e] at this; simp at this; exact ⟨t, by rw [this]⟩

theorem escape_prefix {b c : UInt8} (h : escapeByte b <+: escapeByte c) : b = c := by
  by_cases hb : b ∈ escaped
  · by_cases hc : c ∈ escaped
    · have : ∀ b ∈ escaped, ∀ c ∈ escaped, (escapeByte b).isPrefixOf (escapeByte c) = true → b = c := by decide
      exact this b hb c hc (List.isPrefixOf_iff_prefix.2 h)
    · obtain ⟨t, e⟩ := escape_head hb
      rw [e, escape_not hc] at h
      obtain ⟨u, h⟩ := h
      simp only [List.cons_append, List.cons.injEq] at h
      rw [← h.1] at hc
      exact absurd (by decide) hc
  · rw [escape_not hb] at h
    obtain ⟨u, h⟩ := h
    by_cases hc : c ∈ escaped
    · obtain ⟨t, e⟩ := escape_head hc
      rw [e] at h
      simp only [List.cons_append, List.cons.injEq] at h
      rw [h.1] at hb
      exact absurd (by decide) hb
    · rw [escape_not hc] at h
      simp only [List.cons_append, List.cons.injEq] at h
      exact h.1

theorem escape_inj {b c : UInt8} {x y : Bytes} (h : escapeByte b ++ x = escapeByte c ++ y) : b = c ∧ x = y := by
  have e : b = c := by
    rcases List.append_eq_append_iff.1 h with ⟨z, h1, -⟩ | ⟨z, h1, -⟩
    · exact escape_prefix ⟨z, h1.symm⟩
    · exact (escape_prefix ⟨z, h1.symm⟩).symm
  subst e
  exact ⟨rfl, List.append_cancel_left h⟩

theorem escape_not_quote (b : UInt8) (x y : Bytes) : escapeByte b ++ x ≠ 34 :: y := by
  intro h
  by_cases hb : b ∈ escaped
  · obtain ⟨t, e⟩ := escape_head hb
    rw [e] at h
    exact absurd (List.cons.inj h).1 (by decide)
  · rw [escape_not hb] at h
    have := (List.cons.inj h).1
    rw [this] at hb
    exact hb (by decide)

theorem escapes_inj {s t x y : Bytes} (h : s.flatMap escapeByte ++ 34 :: x = t.flatMap escapeByte ++ 34 :: y) : s = t ∧ x = y := by
  induction s generalizing t with
  | nil =>
    cases t with
    | nil => exact ⟨rfl, (List.cons.inj h).2⟩
    | cons c t =>
      rw [List.flatMap_cons, List.append_assoc] at h
      exact absurd h.symm (escape_not_quote _ _ _)
  | cons b s ih =>
    cases t with
    | nil =>
      rw [List.flatMap_cons, List.append_assoc] at h
      exact absurd h (escape_not_quote _ _ _)
    | cons c t =>
      rw [List.flatMap_cons, List.flatMap_cons, List.append_assoc, List.append_assoc] at h
      obtain ⟨r1, r2⟩ := escape_inj h
      obtain ⟨r3, r4⟩ := ih r2
      exact ⟨by rw [r1, r3], r4⟩

theorem Str.ext_bytes {s t : Str} (h : s.bytes = t.bytes) : s = t := by
  cases s; cases t; cases h; rfl

theorem debugStr_inj {s t : Str} {x y : Bytes} (h : debugStr s ++ x = debugStr t ++ y) : s = t ∧ x = y := by
  simp only [debugStr, List.append_assoc] at h
  obtain ⟨r1, r2⟩ := escapes_inj (List.append_cancel_left h)
  exact ⟨Str.ext_bytes r1, r2⟩

/-- `f` can be read back if `)` follows -/
theorem debugOpt_inj {α : Type} {f : α → Bytes}
    (hf : ∀ (a b : α) (x y : Bytes), f a ++ 41 :: x = f b ++ 41 :: y → a = b ∧ x = y) {o p : Option α} {x y : Bytes}
    (h : debugOpt f o ++ x = debugOpt f p ++ y) : o = p ∧ x = y := by
  cases o <;> cases p
  · exact ⟨rfl, List.append_cancel_left h⟩
  · exact absurd (List.cons.inj h).1 (by decide)
  · exact absurd (List.cons.inj h).1 (by decide)
  · simp only [debugOpt, List.append_assoc] at h
    obtain ⟨r1, r2⟩ := hf _ _ _ _ (List.append_cancel_left h)
    exact ⟨by rw [r1], r2⟩

theorem optStr_inj {o p : Option Str} {x y : Bytes} (h : debugOpt debugStr o ++ x = debugOpt debugStr p ++ y) : o = p ∧ x = y :=
  debugOpt_inj (fun a b x y h => by
    obtain ⟨r1, r2⟩ := debugStr_inj h
    exact ⟨r1, (List.cons.inj r2).2⟩) h

theorem optId_inj {o p : Option UInt16} {x y : Bytes}
    (h : debugOpt (fun id => decimal (UInt16.toNat id)) o ++ x = debugOpt (fun id => decimal (UInt16.toNat id)) p ++ y) :
    o = p ∧ x = y :=
  debugOpt_inj (fun a b x y h => by
    obtain ⟨r1, r2⟩ := decimal_delim (by decide) (by decide) h
    exact ⟨UInt16.toNat_inj.1 r1, (List.cons.inj r2).2⟩) h

/-! ## The kinds of packets -/

theorem connect_inj {c d : Connect} (h : (Packet.connect c).display = (Packet.connect d).display) :
    shown (.connect c) = shown (.connect d) := by
  simp only [Packet.display, List.append_assoc] at h
  obtain ⟨h1, h⟩ := bool_inj (List.append_cancel_left h)
  obtain ⟨h2, h⟩ := optStr_inj (List.append_cancel_left h)
  obtain ⟨h3, h⟩ := optStr_inj (List.append_cancel_left h)
  obtain ⟨h4, h⟩ := decimal_delim (c := 44) (d := 44) (by decide) (by decide) (List.append_cancel_left h)
  have h5 := Str.ext_bytes (List.append_cancel_right (List.append_cancel_left (as := text ", client_id: ") h))
  simp only [shown, h1, h2, h3, UInt16.toNat_inj.1 h4, h5]

theorem connAck_inj {c d : ConnAck} (h : (Packet.connAck c).display = (Packet.connAck d).display) :
    shown (.connAck c) = shown (.connAck d) := by
  simp only [Packet.display, List.append_assoc] at h
  obtain ⟨h1, h⟩ := bool_inj (List.append_cancel_left h)
  obtain ⟨h2, -⟩ := reason_delim (x := []) (y := []) (List.append_cancel_left h)
  simp only [shown, h1, h2]

theorem disconnect_inj {c d : ReasonProps} (h : (Packet.disconnect c).display = (Packet.disconnect d).display) :
    shown (.disconnect c) = shown (.disconnect d) := by
  simp only [Packet.display, List.append_assoc] at h
  obtain ⟨h2, -⟩ := reason_delim (x := []) (y := []) (List.append_cancel_left h)
  simp only [shown, h2]

theorem ack_inj {a b : Ack} {start : Bytes}
    (h : start ++ decimal a.id.toNat ++ text ", reason code: " ++ text a.reason.name ++ text ")" =
      start ++ decimal b.id.toNat ++ text ", reason code: " ++ text b.reason.name ++ text ")") :
    a.id = b.id ∧ a.reason = b.reason := by
  simp only [List.append_assoc] at h
  obtain ⟨h1, h⟩ := decimal_delim (c := 44) (d := 44) (by decide) (by decide) (List.append_cancel_left h)
  obtain ⟨h2, -⟩ := reason_delim (x := []) (y := []) (List.append_cancel_left (as := text ", reason code: ") h)
  exact ⟨UInt16.toNat_inj.1 h1, h2⟩

/-- the text of a message after the topic -/
def afterTopic (m : Publish) : Bytes :=
  text ", qos: " ++ (text m.qos.name ++ (text ", dup: " ++ (boolText m.dup ++ (text ", retain: " ++ (boolText m.retain ++
    (text ", packet id: " ++ (debugOpt (fun id => decimal (UInt16.toNat id)) m.pkid ++ text ")")))))))

theorem afterTopic_colons (m : Publish) : (afterTopic m).count 58 = 4 := by
  have q : (text m.qos.name).count 58 = 0 := by cases m.qos <;> decide
  have b : ∀ b : Bool, (boolText b).count 58 = 0 := by intro b; cases b <;> decide
  have i : (debugOpt (fun id => decimal (UInt16.toNat id)) m.pkid).count 58 = 0 := by
    cases m.pkid with
    | none => decide
    | some n =>
      have : (decimal n.toNat).count 58 = 0 := List.count_eq_zero.2 fun h => absurd (digits_range _ _ h) (by decide)
      simp only [debugOpt, List.count_append, this]
      decide
  simp only [afterTopic, List.count_append, q, b, i]
  decide

theorem topic_inj {t u : Bytes} {m n : Publish} (h : t ++ afterTopic m = u ++ afterTopic n) : t = u ∧ afterTopic m = afterTopic n := by
  have key : ∀ {x : Bytes} {m n : Publish}, afterTopic m = x ++ afterTopic n → x = [] := by
    intro x m n h
    have hc := congrArg (List.count 58) h
    rw [List.count_append, afterTopic_colons, afterTopic_colons] at hc
    have hx : (58 : UInt8) ∉ x := List.count_eq_zero.1 (by omega)
    have e : text ", qos: " = text ", qos" ++ 58 :: [32] := by decide
    unfold afterTopic at h
    rw [e, List.append_assoc, List.append_assoc, ← List.append_assoc x] at h
    obtain ⟨r, -⟩ := delim_inj (P := fun b => b ≠ 58) (by decide) (by
      intro b hb
      rcases List.mem_append.1 hb with hb | hb
      · rintro rfl; exact hx hb
      · exact (by decide : ∀ b ∈ text ", qos", b ≠ 58) b hb) (by simp) (by simp) h
    have := congrArg List.length r
    simp only [List.length_append] at this
    exact List.length_eq_zero_iff.1 (by omega)
  rcases List.append_eq_append_iff.1 h with ⟨x, h1, h2⟩ | ⟨x, h1, h2⟩
  · rw [key h2] at h1 h2
    exact ⟨by simpa using h1.symm, h2⟩
  · rw [key h2] at h1 h2
    exact ⟨by simpa using h1, h2.symm⟩

theorem publish_inj {m n : Publish} (h : (Packet.publish m).display = (Packet.publish n).display) :
    shown (.publish m) = shown (.publish n) := by
  have e : ∀ m : Publish, (Packet.publish m).display = text "Publish(topic: " ++ (m.topic.bytes ++ afterTopic m) := by
    intro m
    simp only [Packet.display, afterTopic, List.append_assoc]
  rw [e, e] at h
  obtain ⟨h1, h⟩ := topic_inj (List.append_cancel_left h)
  unfold afterTopic at h
  obtain ⟨h2, h⟩ := qos_delim (List.append_cancel_left h)
  obtain ⟨h3, h⟩ := bool_inj (List.append_cancel_left (as := [32, 100, 117, 112, 58, 32]) h)
  obtain ⟨h4, h⟩ := bool_inj (List.append_cancel_left h)
  obtain ⟨h5, -⟩ := optId_inj (List.append_cancel_left h)
  simp only [shown, Str.ext_bytes h1, h2, h3, h4, h5]

/-- the type of a packet, as a number -/
def kindNo : Packet → Nat
  | .connect _ => 1 | .connAck _ => 2 | .publish _ => 3 | .pubAck _ => 4 | .pubRec _ => 5 | .pubRel _ => 6 | .pubComp _ => 7
  | .subscribe _ => 8 | .subAck _ => 9 | .unsubscribe _ => 10 | .unsubAck _ => 11 | .pingReq => 12 | .pingResp => 13
  | .disconnect _ => 14 | .auth _ => 15

/-- the kinds by name -/
def kindNames : List (Nat × Bytes) :=
  [(1, text "Connect"), (2, text "ConnAck"), (3, text "Publish"), (4, text "PubAck"), (5, text "PubRec"), (6, text "PubRel"),
    (7, text "PubComp"), (8, text "Subscribe"), (9, text "SubAck"), (10, text "Unsubscribe"), (11, text "UnsubAck"),
    (12, text "PingReq"), (13, text "PingResp"), (14, text "Disconnect"), (15, text "Auth")]

theorem kind_name (p : Packet) : (kindNo p, p.display.takeWhile (· != 40)) ∈ kindNames := by
  have key : ∀ (k : Nat) (a b : Bytes), a.all (· != 40) = true → (k, a) ∈ kindNames →
      (k, (a ++ 40 :: b).takeWhile (· != 40)) ∈ kindNames := by
    intro k a b ha hm
    have ha : ∀ c ∈ a, (c != 40) = true := fun c hc => List.all_eq_true.1 ha c hc
    rw [List.takeWhile_append_of_pos ha]
    simpa using hm
  cases p <;> simp only [Packet.display, List.append_assoc, kindNo]
  case connect c => exact key 1 (text "Connect") _ (by decide) (by decide)
  case connAck c => exact key 2 (text "ConnAck") _ (by decide) (by decide)
  case publish c => exact key 3 (text "Publish") _ (by decide) (by decide)
  case pubAck c => exact key 4 (text "PubAck") _ (by decide) (by decide)
  case pubRec c => exact key 5 (text "PubRec") _ (by decide) (by decide)
  case pubRel c => exact key 6 (text "PubRel") _ (by decide) (by decide)
  case pubComp c => exact key 7 (text "PubComp") _ (by decide) (by decide)
  case disconnect c => exact key 14 (text "Disconnect") _ (by decide) (by decide)
  all_goals decide

theorem kind_eq {p q : Packet} (h : p.display = q.display) : kindNo p = kindNo q := by
  have hp := kind_name p
  have hq := kind_name q
  rw [← h] at hq
  have : ∀ a ∈ kindNames, ∀ b ∈ kindNames, a.2 = b.2 → a.1 = b.1 := by decide
  exact this _ hp _ hq rfl

theorem display_inj {p q : Packet} (h : p.display = q.display) : shown p = shown q := by
  have hk := kind_eq h
  cases p <;> cases q <;> simp only [kindNo, Nat.reduceEqDiff, reduceCtorEq] at hk
  case connect.connect c d => exact connect_inj h
  case connAck.connAck c d => exact connAck_inj h
  case publish.publish c d => exact publish_inj h
  case disconnect.disconnect c d => exact disconnect_inj h
  case pubAck.pubAck c d => obtain ⟨h1, h2⟩ := ack_inj h; simp only [shown, h1, h2]
  case pubRec.pubRec c d => obtain ⟨h1, h2⟩ := ack_inj h; simp only [shown, h1, h2]
  case pubRel.pubRel c d => obtain ⟨h1, h2⟩ := ack_inj h; simp only [shown, h1, h2]
  case pubComp.pubComp c d => obtain ⟨h1, h2⟩ := ack_inj h; simp only [shown, h1, h2]
  all_goals rfl

theorem display_of_shown {p q : Packet} (h : shown p = shown q) : p.display = q.display := by
  cases p <;> cases q <;> simp only [shown, reduceCtorEq, Shown.connect.injEq, Shown.connAck.injEq, Shown.publish.injEq,
    Shown.ack.injEq, Shown.disconnect.injEq, Shown.only.injEq, false_and] at h <;> simp only [Packet.display, h]

theorem codeTitle_nonzero (t : PacketType) (c : UInt8) (h : c ≠ 0) : codeTitle t c = codeTitle .auth c := by
  have h : c.toNat ≠ 0 := fun e => h (UInt8.toNat_inj.1 e)
  unfold codeTitle
  split
  · contradiction
  all_goals rfl

/-! ## What the parts of a text mean -/

theorem decimal_means (n : Nat) : Decimal (decimal n) n := by
  refine ⟨?_, digits_range n, ?_⟩
  · intro h
    simp [decimal] at h
  · have key : ∀ (l : List Char) (k : Nat), (∀ c ∈ l, c.isDigit = true) →
        (l.map fun c => UInt8.ofNat c.toNat).foldl (fun n b => 10 * n + (b.toNat - 48)) k = Nat.ofDigitChars 10 l k := by
      intro l
      induction l with
      | nil => intro k _; simp
      | cons c l ih =>
        intro k hl
        have hd := hl c (by simp)
        simp only [Char.isDigit, ge_iff_le, Bool.and_eq_true, decide_eq_true_eq] at hd
        have h2 : c.toNat ≤ 57 := hd.2
        rw [List.map_cons, List.foldl_cons, ih _ (fun c hc => hl c (by simp [hc])), Nat.ofDigitChars_cons]
        have : (UInt8.ofNat c.toNat).toNat = c.toNat := by simp; omega
        rw [this]
        rfl
    rw [decimal, key _ _ (fun c hc => Nat.isDigit_of_mem_toDigits (by decide) (by decide) hc), Nat.ofDigitChars_ten_toDigits]

theorem bool_means (b : Bool) : Truth (boolText b) b := by cases b <;> rfl

theorem unescape_plain {b : UInt8} (h : b ∉ escaped) (r : Bytes) : unescape (b :: r) = (unescape r).map (b :: ·) := by
  have h1 : b ≠ 92 := by rintro rfl; exact h (by decide)
  have h2 : b ≠ 34 := by rintro rfl; exact h (by decide)
  rw [unescape.eq_def]
  split <;> simp_all

theorem unescape_escape (b : UInt8) (r : Bytes) : unescape (escapeByte b ++ r) = (unescape r).map (b :: ·) := by
  by_cases h : b ∈ escaped
  · have : ∀ b ∈ escaped, (escapeByte b = [92, 48] ∧ b = 0) ∨ (escapeByte b = [92, 116] ∧ b = 9) ∨
        (escapeByte b = [92, 110] ∧ b = 10) ∨ (escapeByte b = [92, 114] ∧ b = 13) ∨ (escapeByte b = [92, 34] ∧ b = 34) ∨
        (escapeByte b = [92, 92] ∧ b = 92) ∨
        (∃ x ∈ text "0123456789abcdef", escapeByte b = [92, 117, 123, x, 125] ∧ b = UInt8.ofNat (hexDigit x)) ∨
        (∃ x ∈ text "0123456789abcdef", ∃ y ∈ text "0123456789abcdef", escapeByte b = [92, 117, 123, x, y, 125] ∧
          b = UInt8.ofNat (16 * hexDigit x + hexDigit y)) := by decide
    rcases this b h with ⟨e, hb⟩ | ⟨e, hb⟩ | ⟨e, hb⟩ | ⟨e, hb⟩ | ⟨e, hb⟩ | ⟨e, hb⟩ | ⟨x, hx, e, hb⟩ | ⟨x, hx, y, hy, e, hb⟩
    · rw [e, hb]; rfl
    · rw [e, hb]; rfl
    · rw [e, hb]; rfl
    · rw [e, hb]; rfl
    · rw [e, hb]; rfl
    · rw [e, hb]; rfl
    · rw [e, hb]; rfl
    · have : y ≠ 125 := by
        have : ∀ y ∈ text "0123456789abcdef", y ≠ 125 := by decide
        exact this y hy
      rw [e, hb]
      simp only [List.cons_append, List.nil_append]
      rw [unescape]
      intro e'
      exact this e'
  · rw [escape_not h]
    exact unescape_plain h r

theorem str_means (s : Str) : Literal (debugStr s) s := by
  refine ⟨s.bytes.flatMap escapeByte, rfl, ?_⟩
  generalize s.bytes = bs
  induction bs with
  | nil => rfl
  | cons b bs ih => rw [List.flatMap_cons, unescape_escape, ih]; rfl

theorem opt_means {α : Type} {f : α → Bytes} {means : Bytes → α → Prop} (h : ∀ a, means (f a) a) (o : Option α) :
    Optional means (debugOpt f o) o := by
  cases o with
  | none => rfl
  | some a => exact ⟨_, rfl, h a⟩

end Mqrstt
