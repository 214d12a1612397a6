import Verif.Proof.Release
import Verif.Spec.Possible
/-!
# Without overflow checks, where futures are dropped (C122)
-/

namespace Mqrstt
namespace Release

def wrel (s : SmolWire) : SmolWire := { s with net := rel s.net }

def wrr (r : Option (SmolWire × List Obs)) : Option (SmolWire × List Obs) := r.map fun r => (wrel r.1, r.2)

theorem cut (s : SmolWire) (ps : List Packet) (k : Nat) (ob : List Obs) : (wrel s).cut ps k ob = wrr (s.cut ps k ob) := by
  have b : (wrel s).buffer = s.buffer := rfl
  unfold SmolWire.cut
  rw [b]
  dsimp only
  split <;> rfl

theorem dropRead (s : SmolWire) (buffer chunk : Bytes) (d : DropAt) (h : s.dropRead buffer chunk d ≠ none) :
    (wrel s).dropRead buffer chunk d = wrr (s.dropRead buffer chunk d) := by
  unfold SmolWire.dropRead at h ⊢
  split
  · rfl
  · rename_i hc
    rw [if_neg hc] at h
    have hp : SmolStream.parse s.net.checks (buffer ++ chunk) ≠ .panic := by
      intro e
      rw [e] at h
      exact h rfl
    have e : SmolStream.parse (wrel s).net.checks (buffer ++ chunk) = SmolStream.parse s.net.checks (buffer ++ chunk) := parse_false hp
    rw [e]
    split
    · rename_i p rest _
      dsimp only
      split
      · split
        · rfl
        · exact cut { s with net := { s.net with network := some rest, await := none, outgoing := [] } } _ _ _
      · split <;> rfl
      · have q : (wrel s).net.sys = s.net.sys := rfl
        have o : (wrel s).net.outgoing = s.net.outgoing := rfl
        rw [q, o]
        split
        · rename_i sys p' reply shown hs
          split
          · split <;> rfl
          · exact cut { s with net := { s.net with network := some rest, sys := sys, outgoing := [] } } _ _ _
        · rfl
    · rfl

theorem dropOutgoing (s : SmolWire) (d : DropAt) : (wrel s).dropOutgoing d = wrr (s.dropOutgoing d) := by
  have q : (wrel s).net.sys = s.net.sys := rfl
  unfold SmolWire.dropOutgoing
  rw [q]
  split
  · split
    · rename_i sys _ _
      exact cut { s with net := { s.net with sys := sys } } _ _ _
    · rfl
  · rfl

theorem dropTimer (s : SmolWire) (d : DropAt) (T : Times) : (wrel s).dropTimer d T = wrr (s.dropTimer d T) := by
  have q : (wrel s).net.sleepOver T = s.net.sleepOver T := rfl
  have p : (wrel s).net.perform = s.net.perform := rfl
  have a : (wrel s).net.await = s.net.await := rfl
  unfold SmolWire.dropTimer
  rw [q, p, a]
  split
  · split
    · split
      · exact cut s _ _ _
      · exact cut s _ _ _
    · rfl
  · rfl

theorem drop (s : SmolWire) (b : SmolBranch) (d : DropAt) (T : Times) (h : s.drop b d T ≠ none) :
    (wrel s).drop b d T = wrr (s.drop b d T) := by
  have k : T.ok (wrel s).net.now = T.ok s.net.now := rfl
  have e : (wrel s).net.sys = s.net.sys := rfl
  have r : (wrel s).net.running = s.net.running := rfl
  have n : (wrel s).net.network = s.net.network := rfl
  unfold SmolWire.drop at h ⊢
  rw [n, k, e, r]
  split
  · rename_i buffer hn
    rw [hn] at h
    dsimp only at h
    split
    · rename_i hg
      rw [if_pos hg] at h
      cases b with
      | read chunk => exact dropRead { s with net := { s.net with now := T.second } } _ chunk d h
      | readError => rfl
      | outgoing => exact dropOutgoing { s with net := { s.net with now := T.second } } d
      | timer => exact dropTimer { s with net := { s.net with now := T.second } } d T
    · rfl
  · rfl

theorem dropConnect (s : Smol) (i : SmolConnect) (d : ConnectDropAt) (h : s.dropConnect i d ≠ none) :
    (rel s).dropConnect i d = rr (s.dropConnect i d) := by
  have k : i.times.ok (rel s).now = i.times.ok s.now := rfl
  have e : (rel s).sys = s.sys := rfl
  have r : (rel s).running = s.running := rfl
  have o : (rel s).options = s.options := rfl
  unfold Smol.dropConnect at h ⊢
  dsimp only at h ⊢
  rw [k, e, r, o]
  split
  · rename_i hg
    rw [if_pos hg] at h
    split
    · rfl
    · rename_i hw
      rw [hw] at h
      dsimp only at h
      cases d with
      | waiting w => rfl
      | handling =>
        dsimp only at h ⊢
        have hp : SmolStream.read s.checks (i.chunks.length + 1) [] i.chunks ≠ .panic := by
          intro e
          rw [e] at h
          exact h rfl
        have q : SmolStream.read (rel s).checks (i.chunks.length + 1) [] i.chunks =
            SmolStream.read s.checks (i.chunks.length + 1) [] i.chunks := read_false _ _ _ hp
        rw [q]
        split
        · rename_i c _ _
          split
          · have m : Smol.noteConnAck ⟨(rel s).checks, s.sys, s.options, (rel s).keepAlive, (rel s).perform, (rel s).lastAction,
                (rel s).await, (rel s).outgoing, (rel s).network, s.running, i.times.second⟩ c i.times.fire =
                rel (({ s with now := i.times.second } : Smol).noteConnAck c i.times.fire) := rfl
            rw [m]
            generalize ({ s with now := i.times.second } : Smol).noteConnAck c i.times.fire = t
            have e' : (rel t).sys = t.sys := rfl
            rw [e']
            split <;> rfl
          · rfl
        · rfl
      | resending n =>
        dsimp only at h ⊢
        have hp : SmolStream.read s.checks (i.chunks.length + 1) [] i.chunks ≠ .panic := by
          intro e
          rw [e] at h
          exact h rfl
        have q : SmolStream.read (rel s).checks (i.chunks.length + 1) [] i.chunks =
            SmolStream.read s.checks (i.chunks.length + 1) [] i.chunks := read_false _ _ _ hp
        rw [q]
        split
        · rename_i c _ _
          split
          · have m : Smol.noteConnAck ⟨(rel s).checks, s.sys, s.options, (rel s).keepAlive, (rel s).perform, (rel s).lastAction,
                (rel s).await, (rel s).outgoing, (rel s).network, s.running, i.times.second⟩ c i.times.fire =
                rel (({ s with now := i.times.second } : Smol).noteConnAck c i.times.fire) := rfl
            rw [m]
            generalize ({ s with now := i.times.second } : Smol).noteConnAck c i.times.fire = t
            have e' : (rel t).sys = t.sys := rfl
            rw [e']
            split <;> rfl
          · rfl
        · rfl
  · rfl

theorem wireStep (s : SmolWire) (op : SmolWireOp) (hn : s.step op ≠ none)
    (h : ∀ s' ob, s.step op = some (s', ob) → .ended .panicked ∉ ob ∧ .connectPanicked ∉ ob) :
    (wrel s).step op = wrr (s.step op) := by
  cases op with
  | op op =>
    have e := step s.net op (by
      intro s' ob e
      exact h _ ob (by simp only [SmolWire.step, e]; rfl))
    have n : (wrel s).net = rel s.net := rfl
    simp only [SmolWire.step]
    rw [n, e]
    cases s.net.step op <;> rfl
  | drop b d T => exact drop s b d T hn
  | dropConnect i d =>
    have n : (wrel s).net = rel s.net := rfl
    simp only [SmolWire.step] at hn ⊢
    rw [n, dropConnect s.net i d (by intro e; rw [e] at hn; exact hn rfl)]
    cases s.net.dropConnect i d <;> rfl

theorem wireHistory (s : SmolWire) (ops : List SmolWireOp) (hp : Spec.Possible s ops)
    (h : .ended .panicked ∉ (s.runOps ops).2 ∧ .connectPanicked ∉ (s.runOps ops).2) :
    (wrel s).runOps ops = (wrel (s.runOps ops).1, (s.runOps ops).2) := by
  induction ops generalizing s with
  | nil => rfl
  | cons op ops ih =>
    obtain ⟨s', ob, e, hp⟩ := hp
    simp only [SmolWire.runOps, Mqrstt.history] at h ⊢
    rw [e] at h
    simp only [List.mem_append, not_or] at h
    have hs := wireStep s op (by rw [e]; nofun) (by
      intro s'' ob' e'
      rw [e] at e'
      cases e'
      exact ⟨h.1.1, h.2.1⟩)
    rw [hs, e]
    have := ih s' hp ⟨h.1.2, h.2.2⟩
    simp only [SmolWire.runOps] at this
    simp only [wrr, Option.map_some, this]

end Release
end Mqrstt
