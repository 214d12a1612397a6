import Verif.Proof.Cuts
import Verif.Proof.Senders
import Verif.Proof.SmolConnect
import Verif.Spec.Reconnect
/-! # Connecting again (C90) -/

namespace Mqrstt
open Mqrstt.Spec Mqrstt.Props _root_.Spec

theorem usable_of {tr : List Obs} (h : tr.any endsNetwork = false) : Usable tr := by
  intro x hx
  cases e : endsNetwork x with
  | false => rfl
  | true => rw [List.any_eq_true.2 ⟨x, hx, e⟩] at h; cases h

theorem VStep.usable {fl v o w} (h : VStep fl v o w) (hu : Usable o) (ha : v.sys.alive = true) : w.sys.alive = true := by
  cases h
  case client hc hs => exact Sys.client_alive hc hs ha
  case drop hr hs =>
    exfalso
    simp only [Sys.step, ha, if_true, Option.some.injEq, Prod.mk.injEq] at hs
    obtain ⟨-, rfl⟩ := hs
    exact Bool.noConfusion (hu (.user .networkDropped) (by simp))
  case accepted hs => exact Sys.step_stays_alive hs ha (by simp) (by simp)
  case acceptedFail hs => exact Sys.step_stays_alive hs ha (by simp) (by simp)
  case refusedPacket hs => exact Sys.step_stays_alive hs ha (by simp) (by simp)
  case outOk hs _ => exact Sys.step_stays_alive hs ha (by simp) (by simp)
  case outDisc hs _ => exact Sys.step_stays_alive hs ha (by simp) (by simp)
  case outErr hs => exact Sys.step_stays_alive hs ha (by simp) (by simp)
  case outFail hs => exact Sys.step_stays_alive hs ha (by simp) (by simp)
  case established hs _ _ => exact Sys.step_stays_alive hs ha (by simp) (by simp)
  case establishFail hs _ _ => exact Sys.step_stays_alive hs ha (by simp) (by simp)
  case establishErr hs => exact Sys.step_stays_alive hs ha (by simp) (by simp)
  case readPanic => exact Bool.noConfusion (hu (.ended .panicked) (by simp))
  case crashed => exact Bool.noConfusion (hu (.ended .panicked) (by simp))
  case outPanic => exact Bool.noConfusion (hu (.ended .panicked) (by simp))
  case connectCrashed => exact Bool.noConfusion (hu .connectPanicked (by simp))
  case establishPanic => exact Bool.noConfusion (hu .connectPanicked (by simp))
  all_goals exact ha

theorem VRun.usable {fl o t tr v} (h : VRun fl (View.init o t) tr v) : Usable tr → v.sys.alive = true := by
  refine h.induct (fun tr v => Usable tr → v.sys.alive = true) (fun _ => rfl) ?_
  intro tr w o w' _ ih hs hu
  exact hs.usable (fun x hx => hu x (by simp [hx])) (ih fun x hx => hu x (by simp [hx]))

/-- the session takes any CONNACK that accepts, as long as there are clients -/
theorem VRun.takes {fl o t tr v} (h : VRun fl (View.init o t) tr v) (ha : v.sys.alive = true) (hg : ¬ ClientsGone tr) {c : ConnAck}
    (hc : c.reason = .success) : ∃ s' ps, v.sys.step (.connAck c) = some (s', .connected c ps) := by
  obtain ⟨sops, hs⟩ := h.contains
  have hcl : v.sys.pool.closed = false := by
    cases e : v.sys.pool.closed with
    | false => rfl
    | true => exact absurd (h.closed.1 e) hg
  rw [hs.sys] at ha hcl ⊢
  exact (inv o.config sops).connAck_ok ha hcl hc

theorem VRun.legal {clientId : Str} {calls : List Setter} {fl t tr v} (h : VRun fl (View.init (Options.build clientId calls) t) tr v) :
    (∀ q id p, .user (.called q id p) ∈ tr → LegalCall q) → LegalSys (Options.build clientId calls) v.sys := by
  refine h.induct (fun tr v => (∀ q id p, .user (.called q id p) ∈ tr → LegalCall q) → LegalSys (Options.build clientId calls) v.sys)
    (fun _ => .init _) ?_
  intro tr w o w' _ ih hs hu
  exact (ih fun q id p hm => hu q id p (by simp [hm])).vstep hs fun q id p hm => hu q id p (by simp [hm])

theorem Smol.writeAll_ok {ps : List Packet} (h : ∀ p ∈ ps, ∃ bs, p.write = .ok bs) : writeAll ps true = .ok () := by
  induction ps with
  | nil => rfl
  | cons p ps ih =>
    obtain ⟨bs, e⟩ := h p (by simp)
    simp only [writeAll, e]
    exact ih fun q hq => h q (by simp [hq])

theorem LegalSys.resent {o : Options} {s s' : Sys} {c : ConnAck} {ps : List Packet} (h : LegalSys o s)
    (hs : s.step (.connAck c) = some (s', .connected c ps)) : ∀ p ∈ ps, ∃ bs, p.write = .ok bs := by
  intro p hp
  have : Sendable p := by
    rcases Sys.step_connected_stored hs p hp with ⟨q, hq, rfl⟩ | ⟨id, rfl⟩
    · exact sendable_closed.copy q (h.held.stored q hq)
    · exact sendable_closed.pubRel id
  obtain ⟨⟨bs, e, -⟩, -⟩ := (Legal.fine this.1 this.2).written
  exact ⟨bs, e⟩

end Mqrstt
