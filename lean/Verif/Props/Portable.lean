import Verif.Proof.PortableBack
import Verif.Props.Calm
import Verif.Props.KeepAlive
/-!
# The two runtimes can be exchanged (C111)

A program that uses the smol client, and is then compiled against the tokio client: does it see anything it could not see before?
-/

namespace Mqrstt.Props
open Mqrstt Mqrstt.Spec _root_.Spec

/-- **C111, from smol to tokio (partial).** In a plain use of the smol client (`PlainUse`), whatever the network, the server, the
clock and the program do: everything observable (what is written and when, what is read and delivered, what `connect` and `run`
return, what the calls return) can be observed of the tokio client, too, with the same options, of which the server sends the same
bytes. Missing: keep-alive 0 or set by the server, a dropped `run`, and servers that send what is no MQTT or what the readers
refuse (`Readable`). That without these the claim is false is `C111_smol_as_tokio_violated`. -/
theorem C111_smol_as_tokio_partial (clientId : Str) (calls : List Setter) (checks : Bool) (t : Nat) (ops : List SmolOp) :
    let o := Options.build clientId calls
    PlainUse o checks t ops → ∃ ops', tokioTrace o t ops' = smolTrace checks o t ops ∧
      (tokioRx o t ops').bytes = (smolRx checks o t ops).bytes ∧ (tokioRx o t ops').packets = (smolRx checks o t ops).packets ∧
      (tokioRx o t ops').taken = 0 := by
  intro o h
  have h' := smol_simulated clientId calls checks t ops.reverse
  rw [List.reverse_reverse] at h'
  obtain ⟨ops', la, nw, h1, -, h2⟩ := h' h
  refine ⟨ops', congrArg Prod.snd h1, by rw [h2], by rw [h2], ?_⟩
  rw [h2]
  exact smolRx_taken _ _ _ _

/-- **C111, from tokio to smol (partial).** In a plain use of the tokio client (`PlainUseTokio`): everything observable, except for
the times at which packets are written, can be observed of the smol client, too, in a build without overflow checks; and the smol
client needs no bytes which the server did not send to the tokio client. Missing: what is missing above, except that keep-alive may
be 0; moreover reads given up with bytes in hand, and a resend that breaks off half way. In the model a read of `connect` may
return more than 4096 bytes at once (see C51). -/
theorem C111_tokio_as_smol_partial (clientId : Str) (calls : List Setter) (t : Nat) (ops : List TokioOp) :
    let o := Options.build clientId calls
    PlainUseTokio o t ops → ∃ ops', (smolTrace false o t ops').map untimed = (tokioTrace o t ops).map untimed ∧
      (smolRx false o t ops').bytes <+: (tokioRx o t ops).bytes := by
  intro o h
  have h' := tokio_simulated clientId calls t ops.reverse
  rw [List.reverse_reverse] at h'
  obtain ⟨ops', tr, la, aw, nw, h1, h2, -, h3⟩ := h' h
  exact ⟨ops', (congrArg (List.map untimed ∘ Prod.snd) h1).trans h2, h3.bytes⟩

/-! ### A message is published and acknowledged, then the server disconnects -/

theorem calm_sent : Promising [0x20, 3, 0, 0, 0, 0x40, 2, 0, 1, 0xE0, 0] :=
  ⟨_, _, .cons ⟨connAck_said, id, id⟩ (.cons pubAck_said (.cons goodbye_said .nil)), ⟨[], by decide +kernel⟩⟩

theorem Promising.less {a b : Bytes} (h : a <+: b) (hb : Promising b) : Promising a := by
  obtain ⟨qs, sent, h1, h2⟩ := hb
  exact ⟨qs, sent, h1, h.trans h2⟩

/-- the whole story: `run` has returned -/
def smolStory : List SmolOp := smolCalm ++ [.turn (.read [0]) true (at' 6)]

def tokioStory : List TokioOp := tokioCalm ++ [.turn .read 0 true (at' 3), .arrive [0xE0, 0], .turn .read 0 true (at' 4)]

/-- a plain use of smol; the traces of the two stories differ in nothing -/
example : PlainUse resumeOptions true 0 smolStory ∧ tokioTrace resumeOptions 0 tokioStory = smolTrace true resumeOptions 0 smolStory ∧
    .ended (.status .incomingDisconnect) ∈ smolTrace true resumeOptions 0 smolStory := by
  have e : ∃ c p, smolTrace true resumeOptions 0 smolStory = [.wrote c 1 1, .read (.connAck ⟨false, .success, .empty⟩),
      .delivered (.connAck ⟨false, .success, .empty⟩), .connected ⟨false, .success, .empty⟩ 1, .started,
      .user (.called (demoPublish .atLeastOnce) (some 1) p), .user (.submitted p), .wrote p 2 2,
      .read (.pubAck ⟨1, .success, .empty⟩), .delivered (.pubAck ⟨1, .success, .empty⟩),
      .read (.disconnect ⟨.normalDisconnection, .empty⟩), .delivered (.disconnect ⟨.normalDisconnection, .empty⟩),
      .ended (.status .incomingDisconnect)] := ⟨_, _, rfl⟩
  have hl : ∀ q id p, .user (.called q id p) ∈ smolTrace true resumeOptions 0 smolStory → LegalRequest q ∧
      ∀ r P, q = .disconnect r P → (Packet.disconnect ⟨r, P⟩).bodyWireLen ≤ 268435455 := by
    obtain ⟨c, p, e⟩ := e
    intro q id p hm
    rw [e] at hm
    have hm : q = demoPublish .atLeastOnce := by simp at hm; exact hm.1
    subst hm
    exact ⟨⟨⟨by unfold NoNull; decide, by decide, by decide⟩, by decide, by decide, rfl, empty_legal _⟩, by intro r P h; cases h⟩
  refine ⟨⟨resumeOptions_legal, hl, by decide, ?_, ?_, ?_, ?_, ?_⟩, rfl, ?_⟩
  · obtain ⟨c, p, e⟩ := e
    intro x hx
    rw [e] at hx
    simp at hx
    subst hx
    rfl
  · intro i hi
    simp [smolStory, smolCalm, smolUp] at hi
    subst hi
    exact Promising.less ⟨[0x40, 2, 0, 1, 0xE0, 0], rfl⟩ calm_sent
  · intro n
    refine Promising.less ?_ calm_sent
    by_cases hn : n < 10
    · exact (by decide +kernel : ∀ n < 10, (smolRx true resumeOptions 0 (smolStory.take n)).bytes <+:
        [0x20, 3, 0, 0, 0, 0x40, 2, 0, 1, 0xE0, 0]) n hn
    · rw [List.take_of_length_le (show smolStory.length ≤ n by have : smolStory.length = 9 := rfl; omega)]
      decide +kernel
  · obtain ⟨c, p, e⟩ := e
    rw [e]; simp
  · obtain ⟨c, p, e⟩ := e
    rw [e]; simp
  · obtain ⟨c, p, e⟩ := e
    rw [e]; simp

/-- a plain use of tokio -/
example : PlainUseTokio resumeOptions 0 tokioStory ∧
    .ended (.status .incomingDisconnect) ∈ tokioTrace resumeOptions 0 tokioStory := by
  have e : ∃ c p, tokioTrace resumeOptions 0 tokioStory = [.wrote c 1 1, .read (.connAck ⟨false, .success, .empty⟩),
      .delivered (.connAck ⟨false, .success, .empty⟩), .connected ⟨false, .success, .empty⟩ 1, .started,
      .user (.called (demoPublish .atLeastOnce) (some 1) p), .user (.submitted p), .wrote p 2 2,
      .read (.pubAck ⟨1, .success, .empty⟩), .delivered (.pubAck ⟨1, .success, .empty⟩),
      .read (.disconnect ⟨.normalDisconnection, .empty⟩), .delivered (.disconnect ⟨.normalDisconnection, .empty⟩),
      .ended (.status .incomingDisconnect)] := ⟨_, _, rfl⟩
  have hl : ∀ q id p, .user (.called q id p) ∈ tokioTrace resumeOptions 0 tokioStory → LegalRequest q ∧
      ∀ r P, q = .disconnect r P → (Packet.disconnect ⟨r, P⟩).bodyWireLen ≤ 268435455 := by
    obtain ⟨c, p, e⟩ := e
    intro q id p hm
    rw [e] at hm
    have hm : q = demoPublish .atLeastOnce := by simp at hm; exact hm.1
    subst hm
    exact ⟨⟨⟨by unfold NoNull; decide, by decide, by decide⟩, by decide, by decide, rfl, empty_legal _⟩, by intro r P h; cases h⟩
  have hi : ∀ i, .connect i ∈ tokioStory → i = ⟨true, plainConnAck, false, fun _ => true, true, at' 1⟩ := by
    intro i hi
    simpa [tokioStory, tokioCalm, tokioUp] using hi
  have htake : ∀ n, ∃ m < 10, tokioStory.take n = tokioStory.take m := by
    intro n
    by_cases hn : n < 10
    · exact ⟨n, hn, rfl⟩
    · refine ⟨9, by omega, ?_⟩
      have : tokioStory.length = 9 := rfl
      rw [List.take_of_length_le (by omega), List.take_of_length_le (by omega)]
  refine ⟨⟨resumeOptions_legal, hl, ?_, ?_, ?_, ?_, ?_, ?_, ?_⟩, ?_⟩
  · obtain ⟨c, p, e⟩ := e
    intro x hx
    rw [e] at hx
    simp at hx
    subst hx
    rfl
  · intro i h
    rw [hi i h]
    exact Promising.less ⟨[0x40, 2, 0, 1, 0xE0, 0], rfl⟩ calm_sent
  · intro i h n
    rw [hi i h]
  · intro n
    obtain ⟨m, hm, e⟩ := htake n
    rw [e]
    exact Promising.less ((by decide +kernel : ∀ n < 10, (tokioRx resumeOptions 0 (tokioStory.take n)).bytes <+:
        [0x20, 3, 0, 0, 0, 0x40, 2, 0, 1, 0xE0, 0]) m hm) calm_sent
  · intro n
    obtain ⟨m, hm, e⟩ := htake n
    rw [e]
    exact (by decide +kernel : ∀ n < 10, (tokioRx resumeOptions 0 (tokioStory.take n)).taken = 0) m hm
  · obtain ⟨c, p, e⟩ := e
    rw [e]; simp
  · obtain ⟨c, p, e⟩ := e
    rw [e]; simp
  · obtain ⟨c, p, e⟩ := e
    rw [e]; simp

/-! ### What one runtime shows and the other cannot -/

/-- **C111** is false from smol to tokio without these conditions: without keep-alive, and after a dropped `run`, smol reports
timeouts which tokio never reports, whatever happens. -/
theorem C111_smol_as_tokio_violated :
    (¬ ∃ ops t, tokioTrace quietOptions t ops = smolTrace true quietOptions 0 smolHour) ∧
    (¬ ∃ ops t, tokioTrace netOptions t ops = smolTrace true netOptions 0 smolStale) := by
  obtain ⟨⟨pre, e, h⟩, pre', e', h'⟩ := C41_timeout_violated
  constructor
  · rintro ⟨ops, t, e1⟩
    obtain ⟨p1, p2, a, b, c, d, hp, -⟩ := C41_timeout_justified_tokio _ _ _ _ _ (e1.trans e)
    exact h a b (by rw [hp]; simp)
  · rintro ⟨ops, t, e1⟩
    exact h' (C41_timeout_justified_tokio _ _ _ _ _ (e1.trans e'))

/-- the server answers the CONNECT with a byte that begins no packet -/
def tokioGarbled : List TokioOp := [.connect ⟨true, [0, 0], false, fun _ => true, true, at' 1⟩]

/-- **C111** is false from tokio to smol if the server does not speak MQTT: `connect` of tokio then says what is wrong with the
answer, `connect` of smol never does. -/
theorem C111_tokio_as_smol_violated : ¬ ∃ checks ops t,
    (smolTrace checks resumeOptions t ops).map untimed = (tokioTrace resumeOptions 0 tokioGarbled).map untimed := by
  rintro ⟨checks, ops, t, e⟩
  have h : ∃ c d, tokioTrace resumeOptions 0 tokioGarbled = [.wrote c 1 1, .connectFailed (.deserialization d)] := ⟨_, _, rfl⟩
  obtain ⟨c, d, h⟩ := h
  have hm : .connectFailed (.deserialization d) ∈ (smolTrace checks resumeOptions t ops).map untimed := by
    rw [e, h]; simp [untimed]
  obtain ⟨x, hx, hu⟩ := List.mem_map.1 hm
  cases x <;> simp [untimed] at hu
  subst hu
  exact smol_silent hx

end Mqrstt.Props
