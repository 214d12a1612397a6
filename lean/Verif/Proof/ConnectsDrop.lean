import Verif.Proof.Interrupt
import Verif.Proof.Connects
import Verif.Proof.DropConnect
/-!
# What every CONNECT says, also after futures have been dropped (C64)
-/

namespace Mqrstt
namespace ConnectsDrop
open Mqrstt.Spec Mqrstt.Props _root_.Spec

/-- no server has named a keep-alive time -/
def Unnamed (tr : List Obs) : Prop := ∀ c, .read (.connAck c) ∈ tr → c.serverKeepAlive = none

theorem Unnamed.interval {tr : List Obs} (h : Unnamed tr) (s : Ka) : (tr.foldl kaStep s).interval = s.interval := by
  induction tr generalizing s with
  | nil => rfl
  | cons x tr ih =>
    rw [List.foldl_cons, ih fun c hc => h c (List.mem_cons_of_mem _ hc)]
    cases x with
    | read p =>
      cases p with
      | connAck c =>
        simp only [kaStep]
        split
        · rfl
        · simp [h c (by simp)]
      | _ => rfl
    | _ => rfl

theorem Quietly.users {s s' : Sys} (h : Quietly s s') (hu : s.Users) : s'.Users := by
  rcases h with rfl | ⟨op, e, h, -⟩
  · exact hu
  · exact hu.step h

theorem VStep.users {fl v o w} (h : VStep fl v o w) (hu : v.sys.Users) : w.sys.Users := by
  rcases h.sysStep with h | h
  · rw [h]; exact hu
  · exact hu.step h

theorem mem_read {tr : List Obs} {p : Packet} : .read p ∈ tr ↔ p ∈ readIn tr := by
  constructor
  · intro h
    exact List.mem_filterMap.2 ⟨_, h, rfl⟩
  · intro h
    obtain ⟨x, hx, e⟩ := List.mem_filterMap.1 h
    cases x <;> simp at e
    exact e ▸ hx

/-! ## tokio -/

theorem tokio_kept (o : Options) (t : Nat) (ops : List TokioWireOp) :
    ((TokioWire.new o t).runOps ops).1.net.sys.Users ∧ Tokio.sameOptions o ((TokioWire.new o t).runOps ops).1.net.options ∧
    (Unnamed ((TokioWire.new o t).runOps ops).2 → ((TokioWire.new o t).runOps ops).1.net.options.keepAlive = o.keepAlive) := by
  refine history_induct TokioWire.step (fun s tr => s.net.sys.Users ∧ Tokio.sameOptions o s.net.options ∧
    (Unnamed tr → s.net.options.keepAlive = o.keepAlive)) (s := TokioWire.new o t) ⟨.init o, .refl _, fun _ => rfl⟩ ?_ ops
  rintro s tr op s' ob ⟨h1, h2, h3⟩ hs
  have step : ∀ {op' ob'}, s.net.step op' = some (s'.net, ob') → (Unnamed ob → Unnamed ob') → s'.net.sys.Users ∧
      Tokio.sameOptions o s'.net.options ∧ (Unnamed (tr ++ ob) → s'.net.options.keepAlive = o.keepAlive) := by
    intro op' ob' hn hob
    have hv := Tokio.step_vstep hn
    refine ⟨VStep.users hv h1, ?_, fun hu => ?_⟩
    · obtain ⟨k, hk⟩ := h2
      obtain ⟨k', hk'⟩ := Tokio.step_options hn
      exact ⟨k', by rw [hk', hk]⟩
    · have := congrArg Ka.interval hv.ka
      rw [(hob fun c hc => hu c (List.mem_append_right _ hc)).interval] at this
      exact (show s'.net.options.keepAlive = s.net.options.keepAlive from this).trans (h3 fun c hc => hu c (List.mem_append_left _ hc))
  cases op with
  | op op =>
    simp only [TokioWire.step] at hs
    split at hs
    · rename_i hn
      cases hs
      exact step hn id
    · cases hs
  | drop b d lost T =>
    have hf := TokioWire.drop_facts (show s.drop b d lost T = some (s', ob) from hs)
    exact ⟨Quietly.users hf.sys h1, hf.options ▸ h2, fun hu => by rw [hf.options]; exact h3 fun c hc => hu c (List.mem_append_left _ hc)⟩
  | dropConnect i d =>
    obtain ⟨i', obs', -, hn', -, hsame, -⟩ := TokioWire.dropConnect_failed hs
    exact step hn' fun hu c hc => hu c (mem_read.2 (hsame.read ▸ mem_read.1 hc))

theorem tk_drop {s s' : TokioWire} {b : TokioBranch} {d : DropAt} {lost : Nat} {T : Times} {ob : List Obs}
    (h : s.drop b d lost T = some (s', ob)) : writtenIn ob = [] := by
  unfold TokioWire.drop TokioWire.dropRead TokioWire.dropOutgoing TokioWire.dropTimer at h
  simp only [TokioWire.cut] at h
  repeat' split at h
  all_goals first
    | (cases h; done)
    | (cases h; rfl)

/-- the CONNECT is made of the options at that time -/
theorem tk_connect {s s' : TokioWire} {op : TokioWireOp} {ob : List Obs} {c : Connect} {a b : Nat} (hu : s.net.sys.Users)
    (h : s.step op = some (s', ob)) (hm : .wrote (.connect c) a b ∈ ob) : .connect c = s.net.options.connectPacket := by
  cases op with
  | op op =>
    simp only [TokioWire.step] at h
    split at h
    · rename_i hn
      cases h
      obtain ⟨o1, o2, rfl⟩ := List.append_of_mem hm
      exact (Tokio.step_connect hu hn).2
    · cases h
  | drop br d lost T =>
    have := tk_drop (show s.drop br d lost T = some (s', ob) from h)
    have hw : Packet.connect c ∈ writtenIn ob := List.mem_filterMap.2 ⟨_, hm, rfl⟩
    rw [this] at hw
    cases hw
  | dropConnect i d =>
    obtain ⟨i', obs', -, hn', -, hsame, -⟩ := TokioWire.dropConnect_failed h
    have hw : Packet.connect c ∈ writtenIn ob := List.mem_filterMap.2 ⟨_, hm, rfl⟩
    rw [← hsame.written] at hw
    obtain ⟨a', b', hw⟩ := mem_writtenIn hw
    obtain ⟨o1, o2, rfl⟩ := List.append_of_mem hw
    exact (Tokio.step_connect hu hn').2

/-! ## smol -/

theorem smol_kept (k : Bool) (o : Options) (t : Nat) (ops : List SmolWireOp) :
    ((SmolWire.new k o t).runOps ops).1.net.Good ∧ ((SmolWire.new k o t).runOps ops).1.net.sys.Users ∧
    ((SmolWire.new k o t).runOps ops).1.net.options = o := by
  refine history_induct SmolWire.step (fun s _ => s.net.Good ∧ s.net.sys.Users ∧ s.net.options = o) (s := SmolWire.new k o t)
    ⟨⟨rfl, by simp [SmolWire.new, Smol.new]⟩, .init o, rfl⟩ ?_ ops
  rintro s tr op s' ob ⟨h1, h2, h3⟩ hs
  cases op with
  | op op =>
    simp only [SmolWire.step] at hs
    split at hs
    · rename_i hn
      cases hs
      obtain ⟨hv, hg⟩ := Smol.step_vstep h1 hn
      exact ⟨hg, VStep.users hv h2, (Smol.step_options hn).trans h3⟩
    · cases hs
  | drop b d T =>
    have hf := SmolWire.drop_facts (show s.drop b d T = some (s', ob) from hs)
    exact ⟨hf.good h1, Quietly.users hf.sys h2, hf.options.trans h3⟩
  | dropConnect i d =>
    obtain ⟨i', obs', -, hn', -⟩ := SmolWire.dropConnect_failed hs
    obtain ⟨hv, hg⟩ := Smol.step_vstep h1 hn'
    exact ⟨hg, VStep.users hv h2, (Smol.step_options hn').trans h3⟩

theorem sm_drop {s s' : SmolWire} {b : SmolBranch} {d : DropAt} {T : Times} {ob : List Obs}
    (h : s.drop b d T = some (s', ob)) : writtenIn ob = [] := by
  unfold SmolWire.drop SmolWire.dropRead SmolWire.dropOutgoing SmolWire.dropTimer at h
  simp only [SmolWire.cut] at h
  repeat' split at h
  all_goals first
    | (cases h; done)
    | (cases h; rfl)

theorem sm_connect {s s' : SmolWire} {op : SmolWireOp} {ob : List Obs} {c : Connect} {a b : Nat} (hg : s.net.Good)
    (hu : s.net.sys.Users) (h : s.step op = some (s', ob)) (hm : .wrote (.connect c) a b ∈ ob) :
    .connect c = s.net.options.connectPacket := by
  cases op with
  | op op =>
    simp only [SmolWire.step] at h
    split at h
    · rename_i hn
      cases h
      obtain ⟨o1, o2, rfl⟩ := List.append_of_mem hm
      exact (Smol.step_connect hg hu hn).2
    · cases h
  | drop br d T =>
    have := sm_drop (show s.drop br d T = some (s', ob) from h)
    have hw : Packet.connect c ∈ writtenIn ob := List.mem_filterMap.2 ⟨_, hm, rfl⟩
    rw [this] at hw
    cases hw
  | dropConnect i d =>
    obtain ⟨i', obs', -, hn', -, hsame, -⟩ := SmolWire.dropConnect_failed h
    have hw : Packet.connect c ∈ writtenIn ob := List.mem_filterMap.2 ⟨_, hm, rfl⟩
    rw [← hsame.written] at hw
    obtain ⟨a', b', hw⟩ := mem_writtenIn hw
    obtain ⟨o1, o2, rfl⟩ := List.append_of_mem hw
    exact (Smol.step_connect hg hu hn').2

end ConnectsDrop
end Mqrstt
