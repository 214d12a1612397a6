import Verif.Spec.Options
import Verif.Props.Codec
/-!
# C18: CONNECT says what the user configured
-/

namespace Mqrstt.Props
open Mqrstt Spec Witness

/-- the CONNECT sent for options made by a sequence of setter calls -/
def connectFor (id : Str) (calls : List Setter) : Packet := (Options.build id calls).connectPacket

theorem lastCall_snoc {α : Type} (f : Setter → Option α) (calls : List Setter) (c : Setter) :
    lastCall f (calls ++ [c]) = (f c).or (lastCall f calls) := by
  simp [lastCall, List.findSome?_cons]
  cases f c <;> rfl

/-- the options after a sequence of calls -/
structure Configured (id : Str) (calls : List Setter) (o : Options) : Prop where
  clientId : o.clientId = (match lastCall clientIdOf calls with | some s => s | none => id)
  cleanStart : o.cleanStart = (match lastCall cleanStartOf calls with | some b => b | none => true)
  username : o.username = lastCall usernameOf calls
  password : o.password = lastCall passwordOf calls
  lastWill : o.lastWill = lastCall lastWillOf calls
  sessionExpiry : o.sessionExpiry = lastCall sessionExpiryOf calls
  receiveMax : o.receiveMax = lastCall receiveMaxOf calls
  sendMax : o.sendMax = lastCall sendMaxOf calls
  maxPacketSize : o.maxPacketSize = lastCall maxPacketSizeOf calls
  keepAlive : o.keepAlive = keepAliveSeconds calls * 1000000000
  topicAliasMax : o.topicAliasMax = none
  requestResponse : o.requestResponse = none
  requestProblem : o.requestProblem = none
  users : o.users = []
  authMethod : o.authMethod = none
  authData : o.authData = none

theorem Options.build_snoc (id : Str) (calls : List Setter) (c : Setter) :
    Options.build id (calls ++ [c]) = ((Options.build id calls).set c).1 := by
  simp [Options.build]

theorem configured_aux (id : Str) (rev : List Setter) :
    Configured id rev.reverse (Options.build id rev.reverse) := by
  induction rev with
  | nil =>
    constructor <;> simp [Options.build, Options.new, lastCall, keepAliveSeconds, fromSecs, nanos]
  | cons c rev ih =>
    rw [List.reverse_cons, Options.build_snoc]
    obtain ⟨h1, h2, h3, h4, h5, h6, h7, h8, h9, h10, h11, h12, h13, h14, h15, h16⟩ := ih
    cases c
    case maxPacketSize n =>
      rcases Nat.lt_or_ge maximumPacketSize n.toNat with hn | hn
      · have hn' : ¬ n.toNat ≤ 268435455 := by simp only [maximumPacketSize] at hn; omega
        have hf : maxPacketSizeOf (.maxPacketSize n) = none := by simp only [maxPacketSizeOf, if_neg hn']
        clear hn'
        constructor <;>
        simp_all [Options.set, lastCall_snoc, clientIdOf, cleanStartOf, usernameOf, passwordOf, lastWillOf,
          sessionExpiryOf, receiveMaxOf, sendMaxOf, keepAliveSeconds, keepAliveOf]
      · have hn1 : ¬ maximumPacketSize < n.toNat := by omega
        have hn' : n.toNat ≤ 268435455 := hn
        have hf : maxPacketSizeOf (.maxPacketSize n) = some n := by simp only [maxPacketSizeOf, if_pos hn']
        have hs : (Options.build id rev.reverse).set (.maxPacketSize n) =
            ({ Options.build id rev.reverse with maxPacketSize := some n }, .ok ()) := if_neg hn1
        rw [hs]
        clear hn' hn hn1 hs
        constructor <;>
        simp_all [lastCall_snoc, clientIdOf, cleanStartOf, usernameOf, passwordOf, lastWillOf,
          sessionExpiryOf, receiveMaxOf, sendMaxOf, keepAliveSeconds, keepAliveOf]
    all_goals
      constructor <;>
      simp_all [Options.set, lastCall_snoc, clientIdOf, cleanStartOf, usernameOf, passwordOf, lastWillOf,
        sessionExpiryOf, receiveMaxOf, sendMaxOf, maxPacketSizeOf, keepAliveSeconds, keepAliveOf, fromSecs, asSecs,
        nanos]

theorem configured (id : Str) (calls : List Setter) : Configured id calls (Options.build id calls) := by
  simpa using configured_aux id calls.reverse

theorem asSecs_build (id : Str) (calls : List Setter) :
    asSecs (Options.build id calls).keepAlive = keepAliveSeconds calls := by
  rw [(configured id calls).keepAlive, asSecs, nanos, Nat.mul_div_cancel _ (by decide)]

/-- **C18 (fields, partial).** For every sequence of setter calls with a keep-alive below 65,536 s the
CONNECT carries exactly what was configured last for each option (or its default) and nothing else.
Missing: longer keep-alive times, for which the claim is false, see `C18_keep_alive_violated`. -/
theorem C18_fields_partial (id : Str) (calls : List Setter) :
    ∃ c, connectFor id calls = .connect c ∧ SaysConfigured id calls c ∧
      (keepAliveSeconds calls < 65536 → c.keepAlive.toNat = keepAliveSeconds calls) := by
  have h := configured id calls
  refine ⟨_, rfl, ?_, ?_⟩
  · refine ⟨h.clientId, h.cleanStart, h.username, h.password, h.lastWill, h.sessionExpiry, h.receiveMax,
      h.maxPacketSize, ?_, rfl, h.users⟩
    intro p h1 h2 h3
    cases p <;> simp_all [Options.connectProps, h.topicAliasMax, h.requestResponse, h.requestProblem, h.authMethod,
      h.authData]
  · intro hk
    simp only [asSecs_build, UInt16.toNat_ofNat']
    omega

/-- calls with every kind of option, one of them twice and one refused -/
def someCalls : List Setter :=
  [.clientId ⟨[97], by decide⟩, .cleanStart false, .username ⟨[98], by decide⟩, .password ⟨[99], by decide⟩,
    .keepAlive 5500000000, .keepAlive 65535999999999, .sessionExpiry 7, .receiveMax 10, .sendMax 11, .maxPacketSize 1000,
    .maxPacketSize 268435456, .lastWill ⟨.exactlyOnce, true, .empty, ⟨[116], by decide⟩, [1]⟩]

example : keepAliveSeconds someCalls = 65535 ∧ keepAliveSeconds someCalls < 65536 ∧
    lastCall maxPacketSizeOf someCalls = some 1000 ∧ lastCall clientIdOf someCalls = some ⟨[97], by decide⟩ := by
  decide

/-- **C18 (keep-alive) is false of the code** from 65,536 s (18.2 hours) on: the seconds are reduced
modulo 65,536, so 65,536 s is announced as 0, "no keep-alive", while the client itself keeps 65,536 s. -/
theorem C18_keep_alive_violated (id : Str) :
    (∀ calls c, connectFor id calls = .connect c → c.keepAlive.toNat = keepAliveSeconds calls % 65536) ∧
    ∃ c, connectFor id [.keepAlive (65536 * 1000000000)] = .connect c ∧ c.keepAlive = 0 ∧
      keepAliveSeconds [.keepAlive (65536 * 1000000000)] = 65536 := by
  constructor
  · intro calls c h
    cases h
    simp only [asSecs_build, UInt16.toNat_ofNat']
  · refine ⟨_, rfl, ?_, by decide⟩
    simp only [asSecs_build]
    decide

/-- what the maxima mean without a setter call -/
def orDefault (n : UInt16) : Option UInt16 → UInt16 | some m => m | none => n

/-- **C18 (the client's own limits).** The client enforces the limits it was given: the number of
identifiers is the configured send maximum (65,535 unless set), packets are checked against the same
maximum size that CONNECT announces (268,435,455 unless set), and QoS 2 messages and receive slots against the
receive maximum it announces. -/
theorem C18_own_limits (id : Str) (calls : List Setter) :
    (Options.build id calls).sys =
      Sys.init (orDefault 65535 (lastCall sendMaxOf calls)) (orDefault 65535 (lastCall receiveMaxOf calls))
        (match lastCall maxPacketSizeOf calls with | some n => n.toNat | none => 268435455)
        (match lastCall cleanStartOf calls with | some b => b | none => true) := by
  have h := configured id calls
  simp only [Options.sys, Options.sendMaximum, Options.receiveMaximum, Options.maximumPacketSize, h.sendMax,
    h.receiveMax, h.maxPacketSize, h.cleanStart]
  congr 1
  · cases lastCall sendMaxOf calls <;> rfl
  · cases lastCall receiveMaxOf calls <;> rfl
  · cases lastCall maxPacketSizeOf calls <;> rfl

example : orDefault 65535 (lastCall sendMaxOf someCalls) = 11 ∧ lastCall cleanStartOf someCalls = some false := by
  decide

theorem flags_toNat (f : ConnectFlags) : f.toU8.toNat = bitAt 7 f.username + bitAt 6 f.password +
    (bitAt 5 f.willRetain + 8 * qosNumber f.willQos + bitAt 2 f.willFlag) + bitAt 1 f.cleanStart := by
  obtain ⟨a, b, c, d, e, g⟩ := f
  cases a <;> cases b <;> cases c <;> cases d <;> cases e <;> cases g <;> decide

theorem connectFlags_toNat (c : Connect) : c.flags.toU8.toNat = connectFlagsByte c := by
  rw [flags_toNat]
  simp only [Connect.flags, connectFlagsByte]
  cases c.lastWill <;> simp [bitAt, qosNumber]

theorem u16Bytes_split (v : UInt16) : ∃ hi lo : UInt8, u16Bytes v = [hi, lo] ∧ hi.toNat * 256 + lo.toNat = v.toNat := by
  refine ⟨_, _, rfl, ?_⟩
  have := v.toNat_lt
  simp
  omega

/-- **C18 (flags).** Whatever CONNECT either writer puts on the wire starts with the fixed header, the
protocol name and version, a flags byte whose bits are set exactly for the fields that are present (will QoS
and retain are those of the last will, the reserved bit is clear) and the keep-alive. -/
theorem C18_wire_head (c : Connect) :
    (∀ bs, (Packet.connect c).write = .ok bs → ConnectHead c bs) ∧
    (∀ bs n, (Packet.connect c).asyncWrite = .ok (bs, n) → ConnectHead c bs) := by
  obtain ⟨hi, lo, hu, hv⟩ := u16Bytes_split c.keepAlive
  constructor
  · intro bs h
    obtain ⟨a, b, h1, h2, rfl⟩ := Wr.append_eq_ok.1 h
    obtain ⟨f, d, h3, h4, rfl⟩ := Wr.append_eq_ok.1 h1
    cases h3
    obtain ⟨_, t1, b1, _, rfl⟩ := Wr.append_eq_ok.1 h2
    obtain ⟨_, t2, b2, _, rfl⟩ := Wr.append_eq_ok.1 b1
    obtain ⟨_, t3, b3, _, rfl⟩ := Wr.append_eq_ok.1 b2
    obtain ⟨_, t4, b4, _, rfl⟩ := Wr.append_eq_ok.1 b3
    obtain ⟨_, t5, b5, _, rfl⟩ := Wr.append_eq_ok.1 b4
    cases b5
    refine ⟨d, c.flags.toU8, hi, lo, t5 ++ (t4 ++ (t3 ++ (t2 ++ t1))), ?_, connectFlags_toNat c, hv⟩
    rw [hu]
    simp [binBytes, Connect.protocolName, Packet.firstByte]
    rfl
  · intro bs n h
    obtain ⟨a, _, b, _, h1, h2, rfl, -⟩ := AWr.append_eq_ok.1 h
    obtain ⟨f, _, d, _, h3, h4, rfl, -⟩ := AWr.append_eq_ok.1 h1
    cases h3
    obtain ⟨_, _, t1, _, b1, _, rfl, -⟩ := AWr.append_eq_ok.1 h2
    obtain ⟨_, _, t2, _, b2, _, rfl, -⟩ := AWr.append_eq_ok.1 b1
    obtain ⟨_, _, t3, _, b3, _, rfl, -⟩ := AWr.append_eq_ok.1 b2
    obtain ⟨_, _, t4, _, b4, _, rfl, -⟩ := AWr.append_eq_ok.1 b3
    obtain ⟨_, _, t5, _, b5, _, rfl, -⟩ := AWr.append_eq_ok.1 b4
    cases b5
    refine ⟨d, c.flags.toU8, hi, lo, t5 ++ (t4 ++ (t3 ++ (t2 ++ t1))), ?_, connectFlags_toNat c, hv⟩
    rw [hu]
    simp [Connect.protocolName, Packet.firstByte]

example : ∃ c bs, connect1 = .connect c ∧ connect1.write = .ok bs ∧ connectFlagsByte c ≠ 0 :=
  ⟨_, _, rfl, rfl, by decide⟩

/-- **C18 (a decoding server).** If the configured strings and the last will fit MQTT's limits, whatever
either writer puts on the wire for the configured CONNECT is decoded to exactly that CONNECT. -/
theorem C18_server_sees (id : Str) (calls : List Setter)
    (h1 : ∀ c, connectFor id calls = .connect c → StrOk c.clientId ∧ (∀ s, c.username = some s → StrOk s) ∧
      (∀ s, c.password = some s → StrOk s) ∧ (∀ w, c.lastWill = some w → WillWF w)) :
    (∀ bs, (connectFor id calls).write = .ok bs →
      ∀ rest, Packet.asyncRead (bs ++ rest) = .ok (connectFor id calls, rest)) ∧
    (∀ bs n, (connectFor id calls).asyncWrite = .ok (bs, n) →
      ∀ rest, Packet.asyncRead (bs ++ rest) = .ok (connectFor id calls, rest)) := by
  have h := configured id calls
  obtain ⟨a1, a2, a3, a4⟩ := h1 _ rfl
  have hp : PropsWF connectEntries (Options.build id calls).connectProps := by
    refine ⟨?_, by simp [Options.connectProps], by simp [Options.connectProps, h.users], ?_, by simp [Options.connectProps],
      by simp [Options.connectProps, h.users], by simp [Options.connectProps, h.authData]⟩
    · intro p hp
      cases p <;> simp_all [Options.connectProps, connectEntries]
    · intro p v hp
      cases p <;> simp_all [Options.connectProps, h.authMethod, h.authData, ValueOk, PropertyType.kind]
  have wf : WF (connectFor id calls) := ⟨hp, a1, a4, a2, a3⟩
  have x1 : ¬ EmptyAuthData (connectFor id calls) := by
    rintro ⟨P, hm, hP⟩
    simp only [connectFor, Options.connectPacket, propSets] at hm
    cases hw : (Options.build id calls).lastWill with
    | none => simp [hw] at hm; subst hm; simp [Options.connectProps, h.authData] at hP
    | some w =>
      simp only [hw, List.mem_cons, List.not_mem_nil, or_false] at hm
      rcases hm with rfl | rfl
      · simp [Options.connectProps, h.authData] at hP
      · have := (a4 w hw).1.listed .authenticationData (by rw [hP]; simp)
        simp [willEntries] at this
  have x2 : ¬ HasAssignedId (connectFor id calls) := by
    rintro ⟨P, hm, hP⟩
    simp only [connectFor, Options.connectPacket, propSets] at hm
    cases hw : (Options.build id calls).lastWill with
    | none => simp [hw] at hm; subst hm; simp [Options.connectProps] at hP
    | some w =>
      simp only [hw, List.mem_cons, List.not_mem_nil, or_false] at hm
      rcases hm with rfl | rfl
      · simp [Options.connectProps] at hP
      · have := (a4 w hw).1.listed .assignedClientIdentifier hP
        simp [willEntries] at this
  refine ⟨(C10_codecs_interchangeable_partial _ wf x1 (fun h => h)).2 (fun h => h), ?_⟩
  intro bs n e rest
  rcases C09_streaming_round_trip_partial _ wf x1 x2 (fun h => h) (fun h => h) with ⟨bs', n', e', hr⟩ | ⟨-, e'⟩
  · rw [e] at e'; cases e'; exact hr rest
  · rw [e] at e'; cases e'

/-- calls with credentials and a last will -/
def fewCalls : List Setter :=
  [.username ⟨[98], by decide⟩, .password ⟨[99], by decide⟩,
    .lastWill ⟨.exactlyOnce, true, .empty, ⟨[116], by decide⟩, [1]⟩]

example : ∃ bs n, (connectFor ⟨[120], by decide⟩ fewCalls).asyncWrite = .ok (bs, n) ∧
    Packet.asyncRead bs = .ok (connectFor ⟨[120], by decide⟩ fewCalls, []) := by
  obtain ⟨bs, n, e⟩ : ∃ bs n, (connectFor ⟨[120], by decide⟩ fewCalls).asyncWrite = .ok (bs, n) :=
    ⟨_, _, rfl⟩
  refine ⟨bs, n, e, ?_⟩
  have := (C18_server_sees ⟨[120], by decide⟩ fewCalls (by
    intro c hc
    cases hc
    refine ⟨by decide, ?_, ?_, ?_⟩
    · intro s hs; cases hs; decide
    · intro s hs; cases hs; decide
    · intro w hw; cases hw; exact ⟨wf_empty _, by decide, by decide⟩)).2 _ _ e []
  rwa [List.append_nil] at this

end Mqrstt.Props
