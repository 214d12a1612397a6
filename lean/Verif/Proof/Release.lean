import Verif.Spec.Network
/-!
# Without overflow checks (C122)
-/

namespace Mqrstt
namespace Release

theorem usizeSub_false {c : Bool} {a b n : Nat} (h : usizeSub c a b = some n) : usizeSub false a b = some n := by
  unfold usizeSub at h ⊢
  split
  · rename_i hle
    rw [if_pos hle] at h
    exact h
  · rename_i hle
    rw [if_neg hle] at h
    cases c <;> simp_all

theorem parse_false {c : Bool} {b : Bytes} (h : SmolStream.parse c b ≠ .panic) : SmolStream.parse false b = SmolStream.parse c b := by
  unfold SmolStream.parse at h ⊢
  split
  · rfl
  · rfl
  · rfl
  · rename_i hd hl e
    rw [e] at h
    dsimp only at h ⊢
    split
    · rename_i hlen
      rw [if_pos hlen] at h
      cases hu : usizeSub c hd.remLen b.length with
      | none => simp [hu] at h
      | some n => simp [usizeSub_false hu]
    · rfl

theorem read_false {c : Bool} (fuel : Nat) (b : Bytes) (chunks : List Bytes) (h : SmolStream.read c fuel b chunks ≠ .panic) :
    SmolStream.read false fuel b chunks = SmolStream.read c fuel b chunks := by
  induction fuel generalizing b chunks with
  | zero => rfl
  | succ fuel ih =>
    unfold SmolStream.read at h ⊢
    split
    · rename_i r e
      rw [e] at h
      dsimp only at h
      cases hr : SmolStream.readRequired r 0 b chunks with
      | done x =>
        rw [hr] at h
        exact ih _ _ h
      | io => rfl
      | panic => rfl
      | waiting => rfl
    · rfl
    · rfl
    · rename_i hd hl e
      rw [e] at h
      dsimp only at h
      split
      · rename_i hlen
        rw [if_pos hlen] at h
        cases hu : usizeSub c hd.remLen b.length with
        | none => simp [hu] at h
        | some n => simp [usizeSub_false hu]
      · rfl

def rel (s : Smol) : Smol := { s with checks := false }

def rr (r : Option (Smol × List Obs)) : Option (Smol × List Obs) := r.map fun r => (rel r.1, r.2)

theorem finish (s : Smol) (ob : List Obs) (e : End) : some ((rel s).finish ob e) = rr (some (s.finish ob e)) := rfl

theorem flush (s : Smol) (ob : List Obs) (io : Bool) (T : Times) :
    some ((rel s).flushOutgoing ob io T) = rr (some (s.flushOutgoing ob io T)) := by
  unfold Smol.flushOutgoing
  have e : (rel s).outgoing = s.outgoing := rfl
  rw [e]
  split <;> rfl

theorem onPacket (s : Smol) (p : Packet) (io : Bool) (T : Times) : (rel s).onPacket p io T = rr (s.onPacket p io T) := by
  unfold Smol.onPacket
  split
  · exact flush { s with await := none } [.read _, .delivered _] io T
  · rfl
  · have e : (rel s).sys = s.sys := rfl
    rw [e]
    split
    · rename_i sys p' reply shown hs
      exact flush { s with sys := sys, outgoing := s.outgoing ++ reply.toList } _ io T
    · rfl
    · rfl
    · rfl

/-- no panic -/
def Calm (r : Option (Smol × List Obs)) : Prop := ∀ s' ob, r = some (s', ob) → .ended .panicked ∉ ob ∧ .connectPanicked ∉ ob

theorem onRead (s : Smol) (buffer chunk : Bytes) (io : Bool) (T : Times) (h : Calm (s.onRead buffer chunk io T)) :
    (rel s).onRead buffer chunk io T = rr (s.onRead buffer chunk io T) := by
  unfold Smol.onRead at h ⊢
  split
  · rfl
  · rename_i hc
    rw [if_neg hc] at h
    split
    · rfl
    · rename_i hl
      rw [if_neg hl] at h
      dsimp only at h ⊢
      have hp : SmolStream.parse s.checks (buffer ++ chunk) ≠ .panic := by
        intro e
        rw [e] at h
        exact (h _ _ rfl).1 (by simp)
      have e : SmolStream.parse (rel s).checks (buffer ++ chunk) = SmolStream.parse s.checks (buffer ++ chunk) := parse_false hp
      rw [e]
      split
      · rename_i p rest _
        exact onPacket { s with network := some rest } p io T
      · rfl
      · rfl
      · rfl

theorem onOutgoing (s : Smol) (io : Bool) (T : Times) : (rel s).onOutgoing io T = rr (s.onOutgoing io T) := by
  unfold Smol.onOutgoing
  have e : (rel s).sys = s.sys := rfl
  rw [e]
  split
  · split <;> rfl
  · split
    · split <;> rfl
    · split
      · dsimp only
        split <;> rfl
      · rfl
      · rfl
      · rfl

theorem onTimer (s : Smol) (io : Bool) (T : Times) : (rel s).onTimer io T = rr (s.onTimer io T) := by
  have q : (rel s).sleepOver T = s.sleepOver T := rfl
  have p : (rel s).perform = s.perform := rfl
  have a : (rel s).await = s.await := rfl
  unfold Smol.onTimer
  rw [q, p, a]
  split
  · split
    · split <;> rfl
    · split <;> rfl
  · rfl

theorem turn (s : Smol) (b : SmolBranch) (io : Bool) (T : Times) (h : Calm (s.turn b io T)) :
    (rel s).turn b io T = rr (s.turn b io T) := by
  have k : T.ok (rel s).now = T.ok s.now := rfl
  have e : (rel s).sys = s.sys := rfl
  have r : (rel s).running = s.running := rfl
  have n : (rel s).network = s.network := rfl
  unfold Smol.turn at h ⊢
  rw [n, k, e, r]
  split
  · rename_i buffer hn
    rw [hn] at h
    dsimp only at h
    split
    · rename_i hg
      rw [if_pos hg] at h
      cases b with
      | read chunk => exact onRead { s with now := T.second } _ chunk io T h
      | readError => rfl
      | outgoing => exact onOutgoing { s with now := T.second } io T
      | timer => exact onTimer { s with now := T.second } io T
    · rfl
  · rfl

theorem established (s : Smol) (c : ConnAck) (buffer : Bytes) (i : SmolConnect) (ob : List Obs) :
    (rel s).established c buffer i ob = rr (s.established c buffer i ob) := by
  have n : (rel s).noteConnAck c i.times.fire = rel (s.noteConnAck c i.times.fire) := rfl
  unfold Smol.established
  dsimp only
  rw [n]
  have e : (rel (s.noteConnAck c i.times.fire)).sys = (s.noteConnAck c i.times.fire).sys := rfl
  rw [e]
  generalize s.noteConnAck c i.times.fire = t
  split
  · split <;> rfl
  · rfl
  · rfl
  · rfl

theorem connect (s : Smol) (i : SmolConnect) (h : Calm (s.connect i)) : (rel s).connect i = rr (s.connect i) := by
  unfold Smol.connect at h ⊢
  dsimp only at h ⊢
  have k : i.times.ok (rel s).now = i.times.ok s.now := rfl
  have e : (rel s).sys = s.sys := rfl
  have r : (rel s).running = s.running := rfl
  have o : (rel s).options = s.options := rfl
  rw [k, e, r, o]
  split
  · rename_i hg
    rw [if_pos hg] at h
    split
    · rfl
    · rename_i hw
      rw [hw] at h
      dsimp only at h
      have hp : SmolStream.read s.checks (i.chunks.length + 1) [] i.chunks ≠ .panic := by
        intro e
        rw [e] at h
        exact (h _ _ rfl).2 (by simp)
      have q : SmolStream.read (rel s).checks (i.chunks.length + 1) [] i.chunks = SmolStream.read s.checks (i.chunks.length + 1) [] i.chunks :=
        read_false _ _ _ hp
      rw [q]
      split
      · split
        · exact established { s with now := i.times.second } _ _ i _
        · rfl
      · rfl
      · rfl
      · rfl
      · rfl
      · rfl
  · rfl

theorem step (s : Smol) (op : SmolOp) (h : Calm (s.step op)) : (rel s).step op = rr (s.step op) := by
  have e : (rel s).sys = s.sys := rfl
  have r : (rel s).running = s.running := rfl
  have n : (rel s).network = s.network := rfl
  cases op with
  | client op =>
    simp only [Smol.step]
    rw [e]
    split
    · split <;> rfl
    · rfl
  | dropNetwork =>
    simp only [Smol.step]
    rw [e, r]
    split
    · rfl
    · split <;> rfl
  | connect i => exact connect s i h
  | start =>
    simp only [Smol.step]
    rw [e, r, n]
    split
    · split <;> rfl
    · rfl
  | turn b io T => exact turn s b io T h
  | cancel =>
    simp only [Smol.step]
    rw [r]
    split <;> rfl

theorem history (s : Smol) (ops : List SmolOp)
    (h : .ended .panicked ∉ (Mqrstt.history Smol.step s ops).2 ∧ .connectPanicked ∉ (Mqrstt.history Smol.step s ops).2) :
    Mqrstt.history Smol.step (rel s) ops = (rel (Mqrstt.history Smol.step s ops).1, (Mqrstt.history Smol.step s ops).2) := by
  induction ops generalizing s with
  | nil => rfl
  | cons op ops ih =>
    simp only [Mqrstt.history] at h ⊢
    have hc : Calm (s.step op) := by
      intro s' ob e
      rw [e] at h
      simp only [List.mem_append, not_or] at h
      exact ⟨h.1.1, h.2.1⟩
    rw [step s op hc]
    cases e : s.step op with
    | none =>
      rw [e] at h
      exact ih s h
    | some x =>
      rw [e] at h
      simp only [List.mem_append, not_or] at h
      simp only [rr, Option.map_some, ih x.1 ⟨h.1.2, h.2.2⟩]

end Release
end Mqrstt
