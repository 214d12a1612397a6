import Verif.Model.Drop
import Verif.Spec.Written
/-! # A dropped `connect` leaves what a failed one leaves -/

namespace Mqrstt
open Mqrstt.Spec

theorem Tokio.writePackets_take (ok : Nat → Bool) (T : Times) (n : Nat) (ps : List Packet) (k : Nat) :
    Tokio.writePackets (fun j => decide (j < k + n) && ok j) T k ps = Tokio.writePackets ok T k (ps.take n) := by
  induction ps generalizing k n with
  | nil => simp [Tokio.writePackets]
  | cons p ps ih =>
    cases n with
    | zero =>
      have none : ∀ (ps : List Packet) (m : Nat), k ≤ m → Tokio.writePackets (fun j => decide (j < k + 0) && ok j) T m ps = [] := by
        intro ps
        induction ps with
        | nil => intros; rfl
        | cons p ps ih =>
          intro m hm
          have : decide (m < k + 0) = false := by simp; omega
          simp only [Tokio.writePackets, this, Bool.false_and, Tokio.writePacket]
          cases p.asyncWrite <;> exact ih _ (by omega)
      simp only [List.take_zero, Tokio.writePackets]
      exact none (p :: ps) k (Nat.le_refl _)
    | succ n =>
      have h1 : decide (k < k + (n + 1)) = true := by simp
      have h2 : k + (n + 1) = k + 1 + n := by omega
      simp only [List.take_succ_cons, Tokio.writePackets, h1, Bool.true_and]
      rw [h2, ih n (k + 1)]

/-- what a dropped `connect` and the failed one with the same result have in common -/
structure SameAttempt (obs obs' : List Obs) : Prop where
  failed : ∃ pre e, obs' = pre ++ [.connectFailed e]
  connected : hasConnected obs' = false
  dropped : hasConnected obs = false
  written : writtenIn obs' = writtenIn obs
  read : readIn obs' = readIn obs
  called : ∀ e, .user e ∉ obs ∧ .user e ∉ obs'
  outward : outward obs' = outward obs

theorem Tokio.writePackets_wrote (ok : Nat → Bool) (T : Times) (ps : List Packet) (k : Nat) :
    ∀ o ∈ Tokio.writePackets ok T k ps, ∃ p, o = .wrote p T.fire T.first := by
  induction ps generalizing k with
  | nil => simp [Tokio.writePackets]
  | cons p ps ih =>
    intro o ho
    simp only [Tokio.writePackets] at ho
    split at ho
    · rcases List.mem_cons.1 ho with rfl | ho
      · exact ⟨_, rfl⟩
      · exact ih _ _ ho
    · exact ih _ _ ho

theorem wrote_facts {T : Times} {obs : List Obs} (h : ∀ o ∈ obs, ∃ p, o = .wrote p T.fire T.first) :
    hasConnected obs = false ∧ readIn obs = [] ∧ ∀ e, .user e ∉ obs := by
  refine ⟨?_, ?_, fun e he => ?_⟩
  · rw [hasConnected, List.any_eq_false]
    intro o ho
    obtain ⟨p, rfl⟩ := h o ho
    simp
  · rw [readIn, List.filterMap_eq_nil_iff]
    intro o ho
    obtain ⟨p, rfl⟩ := h o ho
    rfl
  · obtain ⟨p, hp⟩ := h _ he
    cases hp

/-- `connect` in another environment fails and leaves the same state -/
theorem Tokio.dropConnect_failed {s s' : Tokio} {i : TokioConnect} {d : ConnectDropAt} {obs : List Obs}
    (h : s.dropConnect i d = some (s', obs)) : ∃ i' obs', s.connect i' = some (s', obs') ∧ i'.times = i.times ∧
      SameAttempt obs obs' := by
  simp only [Tokio.dropConnect] at h
  split at h
  · rename_i hok
    split at h
    · cases h
    · rename_i hw
      split at h
      · rename_i written
        simp only [Option.some.injEq, Prod.mk.injEq] at h
        obtain ⟨rfl, rfl⟩ := h
        cases written with
        | false =>
          refine ⟨{ i with connectOk := false }, [.connectFailed .io], ?_, rfl, ⟨⟨[], _, rfl⟩, rfl, rfl, rfl, rfl, by simp, rfl⟩⟩
          simp only [Tokio.connect, hok, if_true]
          rw [show Tokio.writePacket s.options.connectPacket false = .error .io by
            unfold Tokio.writePacket; split <;> rfl]
        | true =>
          refine ⟨{ i with connectOk := true, bytes := [], eof := true }, _, ?_, rfl,
            ⟨⟨[.wrote s.options.connectPacket i.times.enter i.times.fire], .io, rfl⟩, rfl, rfl, rfl, rfl, by simp, rfl⟩⟩
          simp only [Tokio.connect, hok, if_true, hw]
          rfl
      · split at h
        · rename_i c rest hr
          split at h
          · rename_i hc
            split at h
            · rename_i sys c' ps hs
              simp only [Option.some.injEq, Prod.mk.injEq] at h
              obtain ⟨rfl, rfl⟩ := h
              refine ⟨{ i with connectOk := true, resendOk := fun j => decide (j < 0 + 0) && i.resendOk j, flushOk := false },
                [.wrote s.options.connectPacket i.times.enter i.times.fire, .read (.connAck c), .delivered (.connAck c)] ++
                  Tokio.writePackets i.resendOk i.times 0 (ps.take 0) ++ [.connectFailed .io], ?_, rfl,
                ⟨⟨_, _, rfl⟩, rfl, rfl, rfl, rfl, by simp [Tokio.writePackets], rfl⟩⟩
              rw [← Tokio.writePackets_take]
              simp only [Tokio.connect, hok, if_true, hw, hr, hc, Tokio.established, hs]
              rfl
            · cases h
          · cases h
        · cases h
      · rename_i n
        split at h
        · rename_i c rest hr
          split at h
          · rename_i hc
            split at h
            · rename_i sys c' ps hs
              simp only [Option.some.injEq, Prod.mk.injEq] at h
              obtain ⟨rfl, rfl⟩ := h
              obtain ⟨h1, h2, h3⟩ := wrote_facts (Tokio.writePackets_wrote i.resendOk i.times (ps.take n) 0)
              refine ⟨{ i with connectOk := true, resendOk := fun j => decide (j < 0 + n) && i.resendOk j, flushOk := false },
                [.wrote s.options.connectPacket i.times.enter i.times.fire, .read (.connAck c), .delivered (.connAck c)] ++
                  Tokio.writePackets i.resendOk i.times 0 (ps.take n) ++ [.connectFailed .io], ?_, rfl,
                ⟨⟨_, _, rfl⟩, ?_, ?_, ?_, ?_, ?_, ?_⟩⟩
              · rw [← Tokio.writePackets_take]
                simp only [Tokio.connect, hok, if_true, hw, hr, hc, Tokio.established, hs]
                rfl
              · simp only [hasConnected] at h1 ⊢; simp [h1]
              · simp only [hasConnected] at h1 ⊢; simp [h1]
              · simp [writtenIn]
              · simp [readIn]
              · intro e; simp [h3 e]
              · simp [Spec.outward, List.filter_append]
            · cases h
          · cases h
        · cases h
  · cases h

theorem Smol.writeAll_fails (ps : List Packet) : ∃ e, Smol.writeAll ps false = .error e := by
  induction ps with
  | nil => exact ⟨_, rfl⟩
  | cons p ps ih =>
    simp only [Smol.writeAll]
    split
    · exact ⟨_, rfl⟩
    · exact ih

theorem Smol.dropConnect_failed {s s' : Smol} {i : SmolConnect} {d : ConnectDropAt} {obs : List Obs}
    (h : s.dropConnect i d = some (s', obs)) : ∃ i' obs', s.connect i' = some (s', obs') ∧ i'.times = i.times ∧
      SameAttempt obs obs' := by
  simp only [Smol.dropConnect] at h
  split at h
  · rename_i hok
    split at h
    · cases h
    · rename_i hw
      split at h
      · rename_i written
        simp only [Option.some.injEq, Prod.mk.injEq] at h
        obtain ⟨rfl, rfl⟩ := h
        cases written with
        | false =>
          refine ⟨{ i with connectOk := false }, [.connectFailed .io], ?_, rfl, ⟨⟨[], _, rfl⟩, rfl, rfl, rfl, rfl, by simp, rfl⟩⟩
          simp only [Smol.connect, hok, if_true]
          have : Smol.writePacket s.options.connectPacket false = .error .io := by
            unfold Smol.writePacket at hw ⊢
            split
            · rename_i he; rw [he] at hw; cases hw
            · rfl
          rw [this]
        | true =>
          refine ⟨{ i with connectOk := true, chunks := [[]] }, _, ?_, rfl,
            ⟨⟨[.wrote s.options.connectPacket i.times.enter i.times.fire], .io, rfl⟩, rfl, rfl, rfl, rfl, by simp, rfl⟩⟩
          simp only [Smol.connect, hok, if_true, hw]
          rfl
      · split at h
        · rename_i c rest hr
          split at h
          · rename_i hc
            split at h
            · rename_i sys c' ps hs
              simp only [Option.some.injEq, Prod.mk.injEq] at h
              obtain ⟨rfl, rfl⟩ := h
              obtain ⟨e, he⟩ := Smol.writeAll_fails ps
              refine ⟨{ i with connectOk := true, resendOk := false },
                [.wrote s.options.connectPacket i.times.enter i.times.fire, .read (.connAck c), .delivered (.connAck c)] ++
                  [.connectFailed e], ?_, rfl, ⟨⟨_, _, rfl⟩, rfl, rfl, rfl, rfl, by simp, rfl⟩⟩
              simp only [Smol.connect, hok, if_true, hw, hr, hc, Smol.established, hs, he]
              rfl
            · cases h
          · cases h
        · cases h
      · split at h
        · rename_i c rest hr
          split at h
          · rename_i hc
            split at h
            · rename_i sys c' ps hs
              simp only [Option.some.injEq, Prod.mk.injEq] at h
              obtain ⟨rfl, rfl⟩ := h
              obtain ⟨e, he⟩ := Smol.writeAll_fails ps
              refine ⟨{ i with connectOk := true, resendOk := false },
                [.wrote s.options.connectPacket i.times.enter i.times.fire, .read (.connAck c), .delivered (.connAck c)] ++
                  [.connectFailed e], ?_, rfl, ⟨⟨_, _, rfl⟩, rfl, rfl, rfl, rfl, by simp, rfl⟩⟩
              simp only [Smol.connect, hok, if_true, hw, hr, hc, Smol.established, hs, he]
              rfl
            · cases h
          · cases h
        · cases h
  · cases h

/-- the same on the wire -/
theorem TokioWire.dropConnect_failed {s s' : TokioWire} {i : TokioConnect} {d : ConnectDropAt} {obs : List Obs}
    (h : s.step (.dropConnect i d) = some (s', obs)) : ∃ i' obs', s.step (.op (.connect i')) = some (s', obs') ∧
      s.net.step (.connect i') = some (s'.net, obs') ∧ i'.times = i.times ∧ SameAttempt obs obs' ∧ s'.wire = s.wire := by
  simp only [TokioWire.step] at h
  split at h
  · rename_i hd
    simp only [Option.some.injEq, Prod.mk.injEq] at h
    obtain ⟨rfl, rfl⟩ := h
    obtain ⟨i', obs', h1, h2, h3⟩ := Tokio.dropConnect_failed hd
    refine ⟨i', obs', ?_, h1, h2, h3, rfl⟩
    simp only [TokioWire.step, Tokio.step, h1, TokioWire.advance]
    rw [show Obs.connectedIn obs' = false from h3.connected]
    rfl
  · cases h

theorem SmolWire.dropConnect_failed {s s' : SmolWire} {i : SmolConnect} {d : ConnectDropAt} {obs : List Obs}
    (h : s.step (.dropConnect i d) = some (s', obs)) : ∃ i' obs', s.step (.op (.connect i')) = some (s', obs') ∧
      s.net.step (.connect i') = some (s'.net, obs') ∧ i'.times = i.times ∧ SameAttempt obs obs' ∧ s'.wire = s.wire ∧
      s'.buffer = s.buffer := by
  simp only [SmolWire.step] at h
  split at h
  · rename_i hd
    simp only [Option.some.injEq, Prod.mk.injEq] at h
    obtain ⟨rfl, rfl⟩ := h
    obtain ⟨i', obs', h1, h2, h3⟩ := Smol.dropConnect_failed hd
    refine ⟨i', obs', ?_, h1, h2, h3, rfl, rfl⟩
    simp only [SmolWire.step, Smol.step, h1, SmolWire.advance]
    rw [show Obs.connectedIn obs' = false from h3.connected]
    rfl
  · cases h

/-! ## histories -/

theorem outward_append (a b : List Obs) : outward (a ++ b) = outward a ++ outward b := List.filter_append ..

theorem tokio_instead (ops : List TokioWireOp) : ∀ s : TokioWire, ∃ ops', TokioInstead ops ops' ∧
    (s.runOps ops').1 = (s.runOps ops).1 ∧ outward (s.runOps ops').2 = outward (s.runOps ops).2 := by
  induction ops with
  | nil => exact fun s => ⟨[], .nil, rfl, rfl⟩
  | cons op ops ih =>
    intro s
    simp only [TokioWire.runOps] at ih ⊢
    cases op with
    | op op =>
      cases e : s.step (.op op) with
      | none =>
        obtain ⟨ops', h, h1, h2⟩ := ih s
        exact ⟨_, .op op h, by simpa [history, e] using h1, by simpa [history, e] using h2⟩
      | some x =>
        obtain ⟨ops', h, h1, h2⟩ := ih x.1
        exact ⟨_, .op op h, by simpa [history, e] using h1, by simpa [history, e, outward_append] using h2⟩
    | drop b d lost T =>
      cases e : s.step (.drop b d lost T) with
      | none =>
        obtain ⟨ops', h, h1, h2⟩ := ih s
        exact ⟨_, .drop b d lost T h, by simpa [history, e] using h1, by simpa [history, e] using h2⟩
      | some x =>
        obtain ⟨ops', h, h1, h2⟩ := ih x.1
        exact ⟨_, .drop b d lost T h, by simpa [history, e] using h1, by simpa [history, e, outward_append] using h2⟩
    | dropConnect i d =>
      cases e : s.step (.dropConnect i d) with
      | none =>
        obtain ⟨ops', h, h1, h2⟩ := ih s
        have e' : s.step (.op (.connect { i with times := ⟨1, 0, 0, 0⟩ })) = none := by
          simp [TokioWire.step, Tokio.step, Tokio.connect, Times.ok]
        exact ⟨_, .connect i { i with times := ⟨1, 0, 0, 0⟩ } d h, by simpa [history, e, e'] using h1,
          by simpa [history, e, e'] using h2⟩
      | some x =>
        obtain ⟨ops', h, h1, h2⟩ := ih x.1
        obtain ⟨i', obs', e', -, -, hs, -⟩ := TokioWire.dropConnect_failed e
        exact ⟨_, .connect i i' d h, by simpa [history, e, e'] using h1,
          by simpa [history, e, e', outward_append, hs.outward] using h2⟩

theorem smol_instead (ops : List SmolWireOp) : ∀ s : SmolWire, ∃ ops', SmolInstead ops ops' ∧
    (s.runOps ops').1 = (s.runOps ops).1 ∧ outward (s.runOps ops').2 = outward (s.runOps ops).2 := by
  induction ops with
  | nil => exact fun s => ⟨[], .nil, rfl, rfl⟩
  | cons op ops ih =>
    intro s
    simp only [SmolWire.runOps] at ih ⊢
    cases op with
    | op op =>
      cases e : s.step (.op op) with
      | none =>
        obtain ⟨ops', h, h1, h2⟩ := ih s
        exact ⟨_, .op op h, by simpa [history, e] using h1, by simpa [history, e] using h2⟩
      | some x =>
        obtain ⟨ops', h, h1, h2⟩ := ih x.1
        exact ⟨_, .op op h, by simpa [history, e] using h1, by simpa [history, e, outward_append] using h2⟩
    | drop b d T =>
      cases e : s.step (.drop b d T) with
      | none =>
        obtain ⟨ops', h, h1, h2⟩ := ih s
        exact ⟨_, .drop b d T h, by simpa [history, e] using h1, by simpa [history, e] using h2⟩
      | some x =>
        obtain ⟨ops', h, h1, h2⟩ := ih x.1
        exact ⟨_, .drop b d T h, by simpa [history, e] using h1, by simpa [history, e, outward_append] using h2⟩
    | dropConnect i d =>
      cases e : s.step (.dropConnect i d) with
      | none =>
        obtain ⟨ops', h, h1, h2⟩ := ih s
        have e' : s.step (.op (.connect { i with times := ⟨1, 0, 0, 0⟩ })) = none := by
          simp [SmolWire.step, Smol.step, Smol.connect, Times.ok]
        exact ⟨_, .connect i { i with times := ⟨1, 0, 0, 0⟩ } d h, by simpa [history, e, e'] using h1,
          by simpa [history, e, e'] using h2⟩
      | some x =>
        obtain ⟨ops', h, h1, h2⟩ := ih x.1
        obtain ⟨i', obs', e', -, -, hs, -⟩ := SmolWire.dropConnect_failed e
        exact ⟨_, .connect i i' d h, by simpa [history, e, e'] using h1,
          by simpa [history, e, e', outward_append, hs.outward] using h2⟩

theorem TokioWire.runOps_op (ops : List TokioOp) : ∀ s : TokioWire,
    (s.runOps (ops.map .op)).1.net = (s.net.runOps ops).1 ∧ (s.runOps (ops.map .op)).2 = (s.net.runOps ops).2 := by
  induction ops with
  | nil => exact fun s => ⟨rfl, rfl⟩
  | cons op ops ih =>
    intro s
    simp only [TokioWire.runOps, Tokio.runOps] at ih ⊢
    cases e : s.net.step op with
    | none => simpa [history, TokioWire.step, e] using ih s
    | some x => simpa [history, TokioWire.step, e] using ih ⟨x.1, _⟩

theorem SmolWire.runOps_op (ops : List SmolOp) : ∀ s : SmolWire,
    (s.runOps (ops.map .op)).1.net = (s.net.runOps ops).1 ∧ (s.runOps (ops.map .op)).2 = (s.net.runOps ops).2 := by
  induction ops with
  | nil => exact fun s => ⟨rfl, rfl⟩
  | cons op ops ih =>
    intro s
    simp only [SmolWire.runOps, Smol.runOps] at ih ⊢
    cases e : s.net.step op with
    | none => simpa [history, SmolWire.step, e] using ih s
    | some x => simpa [history, SmolWire.step, e] using ih ⟨x.1, _, _⟩

theorem Spec.TokioInstead.ops {ops ops' : List TokioWireOp} (h : TokioInstead ops ops')
    (hd : ∀ b d lost T, .drop b d lost T ∉ ops) : ∃ l : List TokioOp, ops' = l.map .op := by
  induction h with
  | nil => exact ⟨[], rfl⟩
  | op op _ ih =>
    obtain ⟨l, rfl⟩ := ih fun b d lost T h => hd b d lost T (.tail _ h)
    exact ⟨op :: l, rfl⟩
  | drop b d lost T => exact absurd (.head _) (hd b d lost T)
  | connect i i' d _ ih =>
    obtain ⟨l, rfl⟩ := ih fun b d lost T h => hd b d lost T (.tail _ h)
    exact ⟨.connect i' :: l, rfl⟩

theorem Spec.SmolInstead.ops {ops ops' : List SmolWireOp} (h : SmolInstead ops ops')
    (hd : ∀ b d T, .drop b d T ∉ ops) : ∃ l : List SmolOp, ops' = l.map .op := by
  induction h with
  | nil => exact ⟨[], rfl⟩
  | op op _ ih =>
    obtain ⟨l, rfl⟩ := ih fun b d T h => hd b d T (.tail _ h)
    exact ⟨op :: l, rfl⟩
  | drop b d T => exact absurd (.head _) (hd b d T)
  | connect i i' d _ ih =>
    obtain ⟨l, rfl⟩ := ih fun b d T h => hd b d T (.tail _ h)
    exact ⟨.connect i' :: l, rfl⟩

end Mqrstt
