import Verif.Spec.Partway
import Verif.Proof.Cuts
/-!
# Dropping `run` in the middle of a turn

Helper lemmas for `Props/Partway.lean`.
-/

namespace Mqrstt
open Mqrstt.Spec _root_.Spec Mqrstt.Props

/-! ## tokio -/

theorem tokio_cutPlace (p : Packet) {k : Nat} (hk : k ≤ (tokioBytes p).length) :
    (Tokio.writePacket p true = .ok () ∧ ∀ e f rest, TokioPlace (.writing k) (.wrote p e f :: rest) ((tokioBytes p).take k)) ∨
    (∃ e, Tokio.writePacket p true = .error (.serialization e) ∧
      TokioPlace (.writing k) [.ended (.error (.serialization e))] ((tokioBytes p).take k)) := by
  cases h : p.asyncWrite with
  | ok x =>
    refine .inl ⟨by simp [Tokio.writePacket, h], fun e f rest => .inl ⟨p, e, f, rest, rfl, hk, rfl⟩⟩
  | error e =>
    have : tokioBytes p = [] := by simp [tokioBytes, h]
    rw [this] at hk ⊢
    refine .inr ⟨e, by simp [Tokio.writePacket, h], .inr ⟨e, rfl, by simpa using hk, by simp⟩⟩

theorem Sys.write_false {s s' : Sys} {e : Event} (h : s.step (.write false) = some (s', e)) :
    ∃ p, s = { s' with queue := p :: s'.queue } := by
  simp only [Sys.step] at h
  split at h
  · split at h
    · cases h
    · rename_i p rest hq
      cases h
      exact ⟨p, by cases s; cases hq; rfl⟩
  · cases h

theorem Sys.write_true {s : Sys} {p : Packet} {rest : List Packet} (ha : s.alive = true) (hq : s.queue = p :: rest) :
    ∃ s', s.step (.write true) = some (s', .written p) ∨ (∃ e, s.step (.write true) = some (s', .writtenError p e)) ∨
      s.step (.write true) = some (s', .panicked) := by
  simp only [Sys.step, ha, hq, if_true]
  split
  · exact ⟨_, .inl rfl⟩
  · exact ⟨_, .inr (.inl ⟨_, rfl⟩)⟩
  · exact ⟨_, .inr (.inr rfl)⟩

theorem Sys.write_false_some {s : Sys} {p : Packet} {rest : List Packet} (ha : s.alive = true) (hq : s.queue = p :: rest) :
    s.step (.write false) = some ({ s with queue := rest }, .writeFailed p) := by
  simp [Sys.step, ha, hq]

section
variable {s : Tokio} {await : Option Nat} {c : TokioConn} {T : Times} (hrun : s.run = some await) (hnet : s.network = some c)
  (hok : (T.ok s.now && s.sys.alive) = true)
include hrun hnet hok

theorem Tokio.turn_read {lost : Nat} {io : Bool} : s.turn .read lost io T = { s with now := T.second }.onRead c io T := by
  cases s
  simp only at hrun hnet hok
  subst hrun hnet
  simp [Tokio.turn, hok]

theorem Tokio.turn_outgoing {lost : Nat} {io : Bool} (hl : Tokio.canLose c lost = true) : s.turn .outgoing lost io T =
    { s with now := T.second, network := some { c with input := c.input.drop lost } }.onOutgoing io T := by
  cases s
  simp only at hrun hnet hok
  subst hrun hnet
  simp [Tokio.turn, hok, hl]

theorem Tokio.turn_timer {lost : Nat} {io : Bool} (hl : Tokio.canLose c lost = true) : s.turn .timer lost io T =
    { s with now := T.second, network := some { c with input := c.input.drop lost } }.onTimer await io T := by
  cases s
  simp only at hrun hnet hok
  subst hrun hnet
  simp [Tokio.turn, hok, hl]

end

/-- in the outgoing branch: what the whole turn shows -/
theorem Tokio.onOutgoing_place {s : Tokio} {p : Packet} {rest : List Packet} {T : Times} {k : Nat} (ha : s.sys.alive = true)
    (hq : s.sys.queue = p :: rest) (hk : k ≤ (tokioBytes p).length) :
    ∃ n more, s.onOutgoing true T = some (n, more) ∧ TokioPlace (.writing k) more ((tokioBytes p).take k) := by
  simp only [Tokio.onOutgoing, hq]
  rcases tokio_cutPlace p hk with ⟨hw, hpl⟩ | ⟨e, hw, hpl⟩
  · rw [hw]
    obtain ⟨s', h | ⟨e, h⟩ | h⟩ := Sys.write_true ha hq
    · simp only [h]
      split
      · exact ⟨_, _, rfl, hpl _ _ _⟩
      · exact ⟨_, _, rfl, hpl _ _ _⟩
    · simp only [h]
      exact ⟨_, _, rfl, hpl _ _ _⟩
    · simp only [h]
      exact ⟨_, _, rfl, hpl _ _ _⟩
  · rw [hw, Sys.write_false_some ha hq]
    exact ⟨_, _, rfl, hpl⟩

theorem TokioWire.drop_partway {s s' : TokioWire} {b : TokioBranch} {d : DropAt} {lost : Nat} {T : Times} {obs : List Obs}
    (h : s.drop b d lost T = some (s', obs)) : ∃ n seen more, TokioPartway s b d lost T n seen more s' obs := by
  simp only [TokioWire.drop] at h
  split at h
  · rename_i await c hrun hnet
    split at h
    · rename_i hok
      have ha : s.net.sys.alive = true := by simp_all
      cases b with
      | read =>
        simp only [TokioWire.dropRead] at h
        split at h
        · rename_i p rest hread
          split at h
          · split at h
            · cases h
              exact ⟨_, [_], [_], by rw [Tokio.turn_read hrun hnet hok]; simp only [Tokio.onRead, hread, Tokio.onPacket]; rfl,
                rfl, ⟨[], (by exact ⟨rfl, _, _, rfl⟩), by simp⟩, ⟨c, rest, hnet, rfl, fun _ => ⟨_, hread⟩, fun h => absurd rfl h⟩, (by exact fun _ => rfl), (fun h => by cases h), rfl⟩
            · cases h
          · split at h
            · cases h
              exact ⟨_, [_], [_, _], by rw [Tokio.turn_read hrun hnet hok]; simp only [Tokio.onRead, hread, Tokio.onPacket]; rfl,
                rfl, ⟨[], (by exact ⟨rfl, _, _, rfl⟩), by simp⟩, ⟨c, rest, hnet, rfl, fun _ => ⟨_, hread⟩, fun h => absurd rfl h⟩, (by exact fun _ => rfl), (fun h => by cases h), rfl⟩
            · cases h
          · rename_i hn1 hn2
            split at h
            · rename_i sys q reply shown hs
              have key : ∀ (n : Tokio) obs', { s.net with now := T.second, network := some { c with input := rest } }.onPacket p true T = some (n, obs') →
                  s.net.turn .read lost true T = some (n, obs') := by
                intro n obs' h
                rw [Tokio.turn_read hrun hnet hok]; simp only [Tokio.onRead, hread]
                exact h
              split at h
              · split at h
                · rename_i hsh
                  cases h
                  subst hsh
                  cases reply with
                  | none =>
                    exact ⟨_, [_], [_], key _ _ (by
                      simp only [Tokio.onPacket, hs]; rfl), rfl, ⟨[], (by exact ⟨rfl, _, _, rfl⟩), by simp⟩, ⟨c, rest, hnet, rfl, fun _ => ⟨_, hread⟩, fun h => absurd rfl h⟩, (by exact fun _ => rfl), (fun h => by cases h), rfl⟩
                  | some r =>
                    cases hw : Tokio.writePacket r true with
                    | ok x =>
                      exact ⟨_, [_], [_, _], key _ _ (by
                        simp only [Tokio.onPacket, hs, hw]; rfl), rfl, ⟨[], (by exact ⟨rfl, _, _, rfl⟩), by simp⟩, ⟨c, rest, hnet, rfl, fun _ => ⟨_, hread⟩, fun h => absurd rfl h⟩, (by exact fun _ => rfl), (fun h => by cases h), rfl⟩
                    | error e =>
                      exact ⟨_, [_], [_, _], key _ _ (by
                        simp only [Tokio.onPacket, hs, hw]; rfl), rfl, ⟨[], (by exact ⟨rfl, _, _, rfl⟩), by simp⟩, ⟨c, rest, hnet, rfl, fun _ => ⟨_, hread⟩, fun h => absurd rfl h⟩, (by exact fun _ => rfl), (fun h => by cases h), rfl⟩
                · cases h
              · rename_i k r
                simp only [TokioWire.cut] at h
                split at h
                · rename_i hk
                  cases h
                  rcases tokio_cutPlace r hk with ⟨hw, hpl⟩ | ⟨e, hw, hpl⟩
                  · exact ⟨_, if shown then [.read p, .delivered p] else [.read p], [_], key _ _ (by
                      simp only [Tokio.onPacket, hs, hw]; rfl), rfl, ⟨_, hpl _ _ _, rfl⟩, ⟨c, rest, hnet, rfl, fun _ => ⟨_, hread⟩, fun h => absurd rfl h⟩, (by exact fun _ => rfl), (fun h => by cases h), rfl⟩
                  · exact ⟨_, if shown then [.read p, .delivered p] else [.read p], [_], key _ _ (by
                      simp only [Tokio.onPacket, hs, hw]; rfl), rfl, ⟨_, hpl, rfl⟩, ⟨c, rest, hnet, rfl, fun _ => ⟨_, hread⟩, fun h => absurd rfl h⟩, (by exact fun _ => rfl), (fun h => by cases h), rfl⟩
                · cases h
              · cases h
            · cases h
        · cases h
      | readError => cases h
      | outgoing =>
        simp only at h
        split at h
        · rename_i hl
          simp only [TokioWire.dropOutgoing] at h
          split at h
          · rename_i k p q hq
            split at h
            · rename_i sys e hs
              simp only [TokioWire.cut] at h
              split at h
              · rename_i hk
                cases h
                obtain ⟨n, more, hn, hpl⟩ := Tokio.onOutgoing_place (s := { s.net with now := T.second, network := some { c with input := c.input.drop lost } }) (T := T) ha hq hk
                exact ⟨n, [], more, by rw [Tokio.turn_outgoing hrun hnet hok hl]; exact hn, rfl, ⟨_, hpl, rfl⟩,
                  ⟨c, _, hnet, rfl, (fun h => by cases h), fun _ => rfl⟩, fun h => absurd rfl h, fun _ => Sys.write_false hs, rfl⟩
              · cases h
            · cases h
          · cases h
        · cases h
      | timer =>
        simp only at h
        split at h
        · rename_i hl
          simp only [TokioWire.dropTimer] at h
          split at h
          · rename_i ht
            have key : ∀ (n : Tokio) obs', { s.net with now := T.second, network := some { c with input := c.input.drop lost } }.onTimer await true T = some (n, obs') →
                s.net.turn .timer lost true T = some (n, obs') := by
              intro n obs' h
              rw [Tokio.turn_timer hrun hnet hok hl]
              exact h
            split at h
            · split at h
              · rename_i hp
                simp only [TokioWire.cut] at h
                split at h
                · rename_i hk
                  cases h
                  rcases tokio_cutPlace .pingReq hk with ⟨hw, hpl⟩ | ⟨e, hw, hpl⟩
                  · exact ⟨_, [], [_], key _ _ (by simp only [Tokio.onTimer]; rw [if_pos ht, if_pos hp]; simp only [hw]; rfl), rfl, ⟨_, hpl _ _ _, rfl⟩, ⟨c, _, hnet, rfl, (fun h => by cases h), fun _ => rfl⟩, (by exact fun _ => rfl), (fun h => by cases h), rfl⟩
                  · exact ⟨_, [], [_], key _ _ (by simp only [Tokio.onTimer]; rw [if_pos ht, if_pos hp]; simp only [hw]; rfl), rfl, ⟨_, hpl, rfl⟩, ⟨c, _, hnet, rfl, (fun h => by cases h), fun _ => rfl⟩, (by exact fun _ => rfl), (fun h => by cases h), rfl⟩
                · cases h
              · cases h
            · simp only [TokioWire.cut] at h
              split at h
              · rename_i hk
                cases h
                rcases tokio_cutPlace keepAliveDisconnect hk with ⟨hw, hpl⟩ | ⟨e, hw, hpl⟩
                · exact ⟨_, [], [_, _], key _ _ (by simp only [Tokio.onTimer, ht, if_true, hw]; rfl), rfl, ⟨_, hpl _ _ _, rfl⟩, ⟨c, _, hnet, rfl, (fun h => by cases h), fun _ => rfl⟩, (by exact fun _ => rfl), (fun h => by cases h), rfl⟩
                · exact ⟨_, [], [_], key _ _ (by simp only [Tokio.onTimer, ht, if_true, hw]; rfl), rfl, ⟨_, hpl, rfl⟩, ⟨c, _, hnet, rfl, (fun h => by cases h), fun _ => rfl⟩, (by exact fun _ => rfl), (fun h => by cases h), rfl⟩
              · cases h
            · cases h
          · cases h
        · cases h
    · cases h
  · cases h

theorem tokioPlace_unique {d : DropAt} {more : List Obs} {x y : Bytes} (h : TokioPlace d more x) (h' : TokioPlace d more y) : x = y := by
  cases d with
  | handling => rw [h.1, h'.1]
  | writing k =>
    rcases h with ⟨p, e, f, r, rfl, -, rfl⟩ | ⟨e, rfl, -, rfl⟩ <;> rcases h' with ⟨p', e', f', r', h1, -, rfl⟩ | ⟨e', h1, -, rfl⟩ <;>
      cases h1 <;> rfl

theorem tokioPartway_unique {s s1 s2 : TokioWire} {b : TokioBranch} {d : DropAt} {lost : Nat} {T : Times} {n1 n2 : Tokio}
    {seen1 seen2 more1 more2 : List Obs} {obs : List Obs} (h : TokioPartway s b d lost T n1 seen1 more1 s1 obs)
    (h' : TokioPartway s b d lost T n2 seen2 more2 s2 obs) : s1 = s2 := by
  obtain rfl : seen1 = seen2 := by have := h.shown.symm.trans h'.shown; simpa using this
  have ht := h.turn.symm.trans h'.turn
  simp only [Option.some.injEq, Prod.mk.injEq, List.append_cancel_left_eq] at ht
  obtain ⟨rfl, rfl⟩ := ht
  obtain ⟨x, hx, hw⟩ := h.wire
  obtain ⟨y, hy, hw'⟩ := h'.wire
  have hwire : s1.wire = s2.wire := by rw [hw, hw', tokioPlace_unique hx hy]
  have hinput : s1.net.network = s2.net.network := by
    obtain ⟨c, l, h1, h2, h3, h4⟩ := h.input
    obtain ⟨c', l', h1', h2', h3', h4'⟩ := h'.input
    rw [h1] at h1'; cases h1'
    rw [h2, h2']
    by_cases hb : b = .read
    · obtain ⟨p, hp⟩ := h3 hb
      obtain ⟨p', hp'⟩ := h3' hb
      rw [hp] at hp'; cases hp'; rfl
    · rw [h4 hb, h4' hb]
  have hsys : s1.net.sys = s2.net.sys := by
    by_cases hb : b = .outgoing
    · obtain ⟨p, hp⟩ := h.queue hb
      obtain ⟨p', hp'⟩ := h'.queue hb
      have hh := hp.symm.trans hp'
      cases h1 : s1.net.sys; cases h2 : s2.net.sys
      rw [h1, h2] at hh
      simp only [Sys.mk.injEq, List.cons.injEq] at hh ⊢
      grind
    · rw [h.session hb, h'.session hb]
  have hnet : s1.net = s2.net := by rw [h.rest, h'.rest, hsys, hinput]
  cases s1; cases s2; simp_all


/-- where a turn can be dropped, by what it shows -/
theorem tokioPlace_cases {d : DropAt} {seen more full : List Obs} {bytes : Bytes} (h : TokioPlace d more bytes) (hf : seen ++ more = full) :
    (d = .handling ∧ ∃ p rest, full = seen ++ .delivered p :: rest) ∨
    (∃ k p e f rest, d = .writing k ∧ full = seen ++ .wrote p e f :: rest ∧ k ≤ (tokioBytes p).length) ∨
    (∃ e, d = .writing 0 ∧ full = seen ++ [.ended (.error (.serialization e))]) := by
  subst hf
  cases d with
  | handling =>
    obtain ⟨-, p, rest, rfl⟩ := h
    exact .inl ⟨rfl, p, rest, rfl⟩
  | writing k =>
    rcases h with ⟨p, e, f, r, rfl, hk, -⟩ | ⟨e, rfl, rfl, -⟩
    · exact .inr (.inl ⟨k, p, e, f, r, rfl, rfl, hk⟩)
    · exact .inr (.inr ⟨e, rfl, rfl⟩)

theorem TokioWire.cut_isSome {s : TokioWire} {p : Packet} {k : Nat} {obs : List Obs} (hk : k ≤ (tokioBytes p).length) :
    ∃ s', s.cut p k obs = some (s', obs ++ [.cancelled]) := ⟨_, by rw [TokioWire.cut, if_pos hk]⟩

theorem writePacket_ser {p : Packet} {e : ConnErr} (h : Tokio.writePacket p true = .error e) : ∃ e', e = .serialization e' := by
  simp only [Tokio.writePacket] at h
  split at h
  · cases h; exact ⟨_, rfl⟩
  · cases h

/-- a list of what is seen, cut at a place -/
theorem seen_cut1 {seen rest : List Obs} {x a : Obs} (h : [a] = seen ++ x :: rest) : seen = [] ∧ x = a := by
  rcases seen with _ | ⟨b, t⟩ <;> simp_all

theorem seen_cut2 {seen rest : List Obs} {x a b : Obs} (h : [a, b] = seen ++ x :: rest) :
    (seen = [] ∧ x = a) ∨ (seen = [a] ∧ x = b) := by
  rcases seen with _ | ⟨c, _ | ⟨d, t⟩⟩ <;> simp_all

theorem seen_cut3 {seen rest : List Obs} {x a b c : Obs} (h : [a, b, c] = seen ++ x :: rest) :
    (seen = [] ∧ x = a) ∨ (seen = [a] ∧ x = b) ∨ (seen = [a, b] ∧ x = c) := by
  rcases seen with _ | ⟨d, _ | ⟨e, _ | ⟨f, t⟩⟩⟩ <;> simp_all

theorem TokioWire.dropRead_exists {s : TokioWire} {c : TokioConn} {d : DropAt} {T : Times} {n : Tokio} {seen more : List Obs}
    {bytes : Bytes} (h : s.net.onRead c true T = some (n, seen ++ more)) (hp : TokioPlace d more bytes) :
    ∃ s', s.dropRead c d = some (s', seen ++ [.cancelled]) := by
  simp only [Tokio.onRead] at h
  simp only [TokioWire.dropRead]
  split at h
  · rename_i p rest hread
    simp only [hread]
    simp only [Tokio.onPacket] at h
    split at h
    · simp only [Option.some.injEq, Prod.mk.injEq] at h
      rcases tokioPlace_cases hp h.2.symm with ⟨rfl, q, r, hf⟩ | ⟨k, q, e, f, r, rfl, hf, hk⟩ | ⟨e, rfl, hf⟩
      · rcases seen_cut2 hf with ⟨rfl, h'⟩ | ⟨rfl, h'⟩ <;> cases h'
        exact ⟨_, rfl⟩
      · rcases seen_cut2 hf with ⟨rfl, h'⟩ | ⟨rfl, h'⟩ <;> cases h'
      · rcases seen_cut2 hf with ⟨rfl, h'⟩ | ⟨rfl, h'⟩ <;> cases h'
    · simp only [Tokio.finish, Option.some.injEq, Prod.mk.injEq, List.cons_append, List.nil_append] at h
      rcases tokioPlace_cases hp h.2.symm with ⟨rfl, q, r, hf⟩ | ⟨k, q, e, f, r, rfl, hf, hk⟩ | ⟨e, rfl, hf⟩
      · rcases seen_cut3 hf with ⟨rfl, h'⟩ | ⟨rfl, h'⟩ | ⟨rfl, h'⟩ <;> cases h'
        exact ⟨_, rfl⟩
      · rcases seen_cut3 hf with ⟨rfl, h'⟩ | ⟨rfl, h'⟩ | ⟨rfl, h'⟩ <;> cases h'
      · rcases seen_cut3 hf with ⟨rfl, h'⟩ | ⟨rfl, h'⟩ | ⟨rfl, h'⟩ <;> cases h'
    · split at h
      · rename_i sys q reply shown hs
        simp only [hs]
        split at h
        · simp only [Option.some.injEq, Prod.mk.injEq] at h
          cases shown
          · rcases tokioPlace_cases hp h.2.symm with ⟨rfl, q, r, hf⟩ | ⟨k, q, e, f, r, rfl, hf, hk⟩ | ⟨e, rfl, hf⟩ <;>
              obtain ⟨rfl, h'⟩ := seen_cut1 hf <;> cases h'
          · rcases tokioPlace_cases hp h.2.symm with ⟨rfl, q, r, hf⟩ | ⟨k, q, e, f, r, rfl, hf, hk⟩ | ⟨e, rfl, hf⟩ <;>
              rcases seen_cut2 hf with ⟨rfl, h'⟩ | ⟨rfl, h'⟩ <;> cases h'
            exact ⟨_, rfl⟩
        · rename_i r
          split at h
          · simp only [Option.some.injEq, Prod.mk.injEq] at h
            cases shown
            · rcases tokioPlace_cases hp h.2.symm with ⟨rfl, q, r, hf⟩ | ⟨k, q, e, f, r, rfl, hf, hk⟩ | ⟨e, rfl, hf⟩ <;>
                rcases seen_cut2 hf with ⟨rfl, h'⟩ | ⟨rfl, h'⟩ <;> cases h'
              exact TokioWire.cut_isSome hk
            · rcases tokioPlace_cases hp h.2.symm with ⟨rfl, q, r, hf⟩ | ⟨k, q, e, f, r, rfl, hf, hk⟩ | ⟨e, rfl, hf⟩ <;>
                rcases seen_cut3 hf with ⟨rfl, h'⟩ | ⟨rfl, h'⟩ | ⟨rfl, h'⟩ <;> cases h'
              · exact ⟨_, rfl⟩
              · exact TokioWire.cut_isSome hk
          · simp only [Tokio.finish, Option.some.injEq, Prod.mk.injEq] at h
            cases shown
            · rcases tokioPlace_cases hp h.2.symm with ⟨rfl, q, r, hf⟩ | ⟨k, q, e, f, r, rfl, hf, hk⟩ | ⟨e, rfl, hf⟩ <;>
                rcases seen_cut2 hf with ⟨rfl, h'⟩ | ⟨rfl, h'⟩ <;> cases h'
              exact TokioWire.cut_isSome (Nat.zero_le _)
            · rcases tokioPlace_cases hp h.2.symm with ⟨rfl, q, r, hf⟩ | ⟨k, q, e, f, r, rfl, hf, hk⟩ | ⟨e, rfl, hf⟩ <;>
                rcases seen_cut3 hf with ⟨rfl, h'⟩ | ⟨rfl, h'⟩ | ⟨rfl, h'⟩ <;> cases h'
              · exact ⟨_, rfl⟩
              · exact TokioWire.cut_isSome (Nat.zero_le _)
      · simp only [Tokio.finish, Option.some.injEq, Prod.mk.injEq, List.cons_append, List.nil_append] at h
        rcases tokioPlace_cases hp h.2.symm with ⟨rfl, q, r, hf⟩ | ⟨k, q, e, f, r, rfl, hf, hk⟩ | ⟨e, rfl, hf⟩ <;>
          rcases seen_cut2 hf with ⟨rfl, h'⟩ | ⟨rfl, h'⟩ <;> cases h'
      · simp only [Tokio.finish, Option.some.injEq, Prod.mk.injEq, List.cons_append, List.nil_append] at h
        rcases tokioPlace_cases hp h.2.symm with ⟨rfl, q, r, hf⟩ | ⟨k, q, e, f, r, rfl, hf, hk⟩ | ⟨e, rfl, hf⟩ <;>
          rcases seen_cut2 hf with ⟨rfl, h'⟩ | ⟨rfl, h'⟩ <;> cases h'
      · cases h
  · simp only [Tokio.finish, Option.some.injEq, Prod.mk.injEq, List.nil_append] at h
    rcases tokioPlace_cases hp h.2.symm with ⟨rfl, q, r, hf⟩ | ⟨k, q, e, f, r, rfl, hf, hk⟩ | ⟨e, rfl, hf⟩ <;>
      obtain ⟨rfl, h'⟩ := seen_cut1 hf <;> cases h'
  · split at h
    · simp only [Tokio.finish, Option.some.injEq, Prod.mk.injEq, List.nil_append] at h
      rcases tokioPlace_cases hp h.2.symm with ⟨rfl, q, r, hf⟩ | ⟨k, q, e, f, r, rfl, hf, hk⟩ | ⟨e, rfl, hf⟩ <;>
        obtain ⟨rfl, h'⟩ := seen_cut1 hf <;> cases h'
    · cases h
  · simp only [Tokio.finish, Option.some.injEq, Prod.mk.injEq, List.nil_append] at h
    rcases tokioPlace_cases hp h.2.symm with ⟨rfl, q, r, hf⟩ | ⟨k, q, e, f, r, rfl, hf, hk⟩ | ⟨e, rfl, hf⟩ <;>
      obtain ⟨rfl, h'⟩ := seen_cut1 hf <;> cases h'

theorem TokioWire.dropOutgoing_exists {s : TokioWire} {d : DropAt} {T : Times} {n : Tokio} {seen more : List Obs}
    {bytes : Bytes} (ha : s.net.sys.alive = true) (h : s.net.onOutgoing true T = some (n, seen ++ more)) (hp : TokioPlace d more bytes) :
    ∃ s', s.dropOutgoing d = some (s', seen ++ [.cancelled]) := by
  simp only [Tokio.onOutgoing] at h
  simp only [TokioWire.dropOutgoing]
  split at h
  · split at h
    · simp only [Tokio.finish, Option.some.injEq, Prod.mk.injEq, List.nil_append] at h
      rcases tokioPlace_cases hp h.2.symm with ⟨rfl, q, r, hf⟩ | ⟨k, q, e, f, r, rfl, hf, hk⟩ | ⟨e, rfl, hf⟩ <;>
        obtain ⟨rfl, h'⟩ := seen_cut1 hf <;> cases h'
    · cases h
  · rename_i p q hq
    have hwf := Sys.write_false_some ha hq
    split at h
    · rw [hwf] at h
      simp only [Tokio.finish, Option.some.injEq, Prod.mk.injEq, List.nil_append] at h
      rcases tokioPlace_cases hp h.2.symm with ⟨rfl, q, r, hf⟩ | ⟨k, q, e, f, r, rfl, hf, hk⟩ | ⟨e, rfl, hf⟩ <;>
        obtain ⟨rfl, h'⟩ := seen_cut1 hf <;> cases h'
      simp only [hq, hwf]
      exact TokioWire.cut_isSome (Nat.zero_le _)
    · split at h
      · split at h
        · simp only [Tokio.finish, Option.some.injEq, Prod.mk.injEq, List.cons_append, List.nil_append] at h
          rcases tokioPlace_cases hp h.2.symm with ⟨rfl, q, r, hf⟩ | ⟨k, q, e, f, r, rfl, hf, hk⟩ | ⟨e, rfl, hf⟩ <;>
            rcases seen_cut2 hf with ⟨rfl, h'⟩ | ⟨rfl, h'⟩ <;> cases h'
          simp only [hq, hwf]
          exact TokioWire.cut_isSome hk
        · simp only [Option.some.injEq, Prod.mk.injEq] at h
          rcases tokioPlace_cases hp h.2.symm with ⟨rfl, q, r, hf⟩ | ⟨k, q, e, f, r, rfl, hf, hk⟩ | ⟨e, rfl, hf⟩ <;>
            obtain ⟨rfl, h'⟩ := seen_cut1 hf <;> cases h'
          simp only [hq, hwf]
          exact TokioWire.cut_isSome hk
      · simp only [Tokio.finish, Option.some.injEq, Prod.mk.injEq, List.cons_append, List.nil_append] at h
        rcases tokioPlace_cases hp h.2.symm with ⟨rfl, q, r, hf⟩ | ⟨k, q, e, f, r, rfl, hf, hk⟩ | ⟨e, rfl, hf⟩ <;>
          rcases seen_cut2 hf with ⟨rfl, h'⟩ | ⟨rfl, h'⟩ <;> cases h'
        simp only [hq, hwf]
        exact TokioWire.cut_isSome hk
      · simp only [Tokio.finish, Option.some.injEq, Prod.mk.injEq, List.cons_append, List.nil_append] at h
        rcases tokioPlace_cases hp h.2.symm with ⟨rfl, q, r, hf⟩ | ⟨k, q, e, f, r, rfl, hf, hk⟩ | ⟨e, rfl, hf⟩ <;>
          rcases seen_cut2 hf with ⟨rfl, h'⟩ | ⟨rfl, h'⟩ <;> cases h'
        simp only [hq, hwf]
        exact TokioWire.cut_isSome hk
      · cases h

theorem TokioWire.dropTimer_exists {s : TokioWire} {await : Option Nat} {d : DropAt} {T : Times} {n : Tokio} {seen more : List Obs}
    {bytes : Bytes} (h : s.net.onTimer await true T = some (n, seen ++ more)) (hp : TokioPlace d more bytes) :
    ∃ s', s.dropTimer await d T = some (s', seen ++ [.cancelled]) := by
  simp only [Tokio.onTimer] at h
  simp only [TokioWire.dropTimer]
  split at h
  · rename_i ht
    rw [if_pos ht]
    split at h
    · split at h
      · rename_i hpf
        split at h
        · simp only [Option.some.injEq, Prod.mk.injEq] at h
          rcases tokioPlace_cases hp h.2.symm with ⟨rfl, q, r, hf⟩ | ⟨k, q, e, f, r, rfl, hf, hk⟩ | ⟨e, rfl, hf⟩ <;>
            obtain ⟨rfl, h'⟩ := seen_cut1 hf <;> cases h'
          simp only
          rw [if_pos hpf]
          exact TokioWire.cut_isSome hk
        · simp only [Tokio.finish, Option.some.injEq, Prod.mk.injEq, List.nil_append] at h
          rcases tokioPlace_cases hp h.2.symm with ⟨rfl, q, r, hf⟩ | ⟨k, q, e, f, r, rfl, hf, hk⟩ | ⟨e, rfl, hf⟩ <;>
            obtain ⟨rfl, h'⟩ := seen_cut1 hf <;> cases h'
          simp only
          rw [if_pos hpf]
          exact TokioWire.cut_isSome (Nat.zero_le _)
      · cases h
    · split at h
      · simp only [Tokio.finish, Option.some.injEq, Prod.mk.injEq, List.cons_append, List.nil_append] at h
        rcases tokioPlace_cases hp h.2.symm with ⟨rfl, q, r, hf⟩ | ⟨k, q, e, f, r, rfl, hf, hk⟩ | ⟨e, rfl, hf⟩ <;>
          rcases seen_cut2 hf with ⟨rfl, h'⟩ | ⟨rfl, h'⟩ <;> cases h'
        exact TokioWire.cut_isSome hk
      · simp only [Tokio.finish, Option.some.injEq, Prod.mk.injEq, List.nil_append] at h
        rcases tokioPlace_cases hp h.2.symm with ⟨rfl, q, r, hf⟩ | ⟨k, q, e, f, r, rfl, hf, hk⟩ | ⟨e, rfl, hf⟩ <;>
          obtain ⟨rfl, h'⟩ := seen_cut1 hf <;> cases h'
        exact TokioWire.cut_isSome (Nat.zero_le _)
  · cases h

/-- the place where `run` was dropped exists in the model -/
theorem TokioWire.drop_exists {s : TokioWire} {b : TokioBranch} {d : DropAt} {lost : Nat} {T : Times} {n : Tokio}
    {seen more : List Obs} {bytes : Bytes} (h : s.net.turn b lost true T = some (n, seen ++ more)) (hp : TokioPlace d more bytes) :
    ∃ s', s.drop b d lost T = some (s', seen ++ [.cancelled]) := by
  obtain ⟨⟨sys, options, perform, lastAction, network, run, now⟩, wire⟩ := s
  simp only [Tokio.turn] at h
  split at h
  · split at h
    · rename_i hok
      simp only [TokioWire.drop]
      rw [if_pos hok]
      cases b with
      | read => exact TokioWire.dropRead_exists (s := ⟨_, wire⟩) h hp
      | readError =>
        simp only [Tokio.finish, Option.some.injEq, Prod.mk.injEq, List.nil_append] at h
        rcases tokioPlace_cases hp h.2.symm with ⟨rfl, q, r, hf⟩ | ⟨k, q, e, f, r, rfl, hf, hk⟩ | ⟨e, rfl, hf⟩ <;>
          obtain ⟨rfl, h'⟩ := seen_cut1 hf <;> cases h'
      | outgoing =>
        simp only at h ⊢
        split at h
        · rename_i hl
          rw [if_pos hl]
          exact TokioWire.dropOutgoing_exists (s := ⟨_, wire⟩) (by simp_all) h hp
        · cases h
      | timer =>
        simp only at h ⊢
        split at h
        · rename_i hl
          rw [if_pos hl]
          exact TokioWire.dropTimer_exists (s := ⟨_, wire⟩) h hp
        · cases h
    · cases h
  · cases h

theorem tokioPartway_drop {s s' : TokioWire} {b : TokioBranch} {d : DropAt} {lost : Nat} {T : Times} {n : Tokio}
    {seen more obs : List Obs} (h : TokioPartway s b d lost T n seen more s' obs) : s.drop b d lost T = some (s', obs) := by
  obtain ⟨bytes, hpl, -⟩ := h.wire
  obtain ⟨s2, h2⟩ := TokioWire.drop_exists h.turn hpl
  rw [← h.shown] at h2
  obtain ⟨n', seen', more', h'⟩ := TokioWire.drop_partway h2
  rw [h2, tokioPartway_unique h h']

/-! ## smol -/

theorem writeAll_ok {ps : List Packet} (h : (ps.all fun p => p.write.toBool) = true) : Smol.writeAll ps true = .ok () := by
  induction ps with
  | nil => rfl
  | cons p ps ih =>
    simp only [List.all_cons, Bool.and_eq_true] at h
    simp only [Smol.writeAll]
    cases hw : p.write with
    | ok x => exact ih h.2
    | error e => rw [hw] at h; simp [Except.toBool] at h

theorem all_of_writeAll {ps : List Packet} (h : Smol.writeAll ps true = .ok ()) : (ps.all fun p => p.write.toBool) = true := by
  induction ps with
  | nil => rfl
  | cons p ps ih =>
    simp only [Smol.writeAll] at h
    split at h
    · cases h
    · rename_i hw
      rw [List.all_cons, ih h, hw]
      rfl

theorem smol_writePacket_eq (p : Packet) : Smol.writePacket p true = .ok () ↔ ([p].all fun p => p.write.toBool) = true := by
  cases h : p.write <;> simp [Smol.writePacket, h, Except.toBool]

section
variable {s : Smol} {buffer : Bytes} {T : Times} (hnet : s.network = some buffer)
  (hok : (T.ok s.now && s.sys.alive && s.running) = true)
include hnet hok

theorem Smol.turn_read {chunk : Bytes} {io : Bool} : s.turn (.read chunk) io T = { s with now := T.second }.onRead buffer chunk io T := by
  cases s
  simp only at hnet hok
  subst hnet
  simp only [Smol.turn]
  rw [if_pos hok]

theorem Smol.turn_outgoing {io : Bool} : s.turn .outgoing io T = { s with now := T.second }.onOutgoing io T := by
  cases s
  simp only at hnet hok
  subst hnet
  simp only [Smol.turn]
  rw [if_pos hok]

theorem Smol.turn_timer {io : Bool} : s.turn .timer io T = { s with now := T.second }.onTimer io T := by
  cases s
  simp only at hnet hok
  subst hnet
  simp only [Smol.turn]
  rw [if_pos hok]

end

theorem smol_cutPlace {p : Packet} {k a b : Nat} {old : Bytes} {rest : List Obs} (hr : writtenIn rest = [])
    (hk : k ≤ (old ++ [p].flatMap smolBytes).length) :
    SmolPlace (.writing k) [] (.wrote p a b :: rest) old ((old ++ [p].flatMap smolBytes).take k) (old ++ [p].flatMap smolBytes) :=
  ⟨.inl ⟨p, a, b, by simp⟩, rfl, by simp, by simp, by rw [show writtenIn (.wrote p a b :: rest) = p :: writtenIn rest from rfl, hr], hk, rfl⟩

/-- in the outgoing branch: what the whole turn shows -/
theorem Smol.onOutgoing_place {s : Smol} {p : Packet} {q : List Packet} {T : Times} {k : Nat} {old : Bytes} (ha : s.sys.alive = true)
    (hq : s.sys.queue = p :: q) (hw : ([p].all fun p => p.write.toBool) = true) (hk : k ≤ (old ++ [p].flatMap smolBytes).length) :
    ∃ n more, s.onOutgoing true T = some (n, more) ∧
      SmolPlace (.writing k) [] more old ((old ++ [p].flatMap smolBytes).take k) (old ++ [p].flatMap smolBytes) := by
  simp only [Smol.onOutgoing, hq, (smol_writePacket_eq p).2 hw]
  obtain ⟨s', h | ⟨e, h⟩ | h⟩ := Sys.write_true ha hq
  · simp only [h]
    split
    · exact ⟨_, _, rfl, smol_cutPlace rfl hk⟩
    · exact ⟨_, _, rfl, smol_cutPlace rfl hk⟩
  · simp only [h]
    exact ⟨_, _, rfl, smol_cutPlace rfl hk⟩
  · simp only [h]
    exact ⟨_, _, rfl, smol_cutPlace rfl hk⟩

theorem SmolWire.drop_partway {s s' : SmolWire} {b : SmolBranch} {d : DropAt} {T : Times} {obs : List Obs} (hg : s.net.Good)
    (h : s.drop b d T = some (s', obs)) : ∃ n seen more, SmolPartway s b d T n seen more s' obs := by
  have hout := hg.outgoing
  simp only [SmolWire.drop] at h
  split at h
  · rename_i old hnet
    split at h
    · rename_i hok
      have ha : s.net.sys.alive = true := by simp_all
      cases b with
      | read chunk =>
        simp only [SmolWire.dropRead] at h
        split at h
        · cases h
        · rename_i hch
          split at h
          · rename_i p left hparse
            have key : ∀ (n : Smol) obs', { s.net with now := T.second, network := some left }.onPacket p true T = some (n, obs') →
                s.net.turn (.read chunk) true T = some (n, obs') := by
              intro n obs' h
              rw [Smol.turn_read hnet hok]
              simp only [Smol.onRead]
              rw [if_neg (fun h => hch (.inl h)), if_neg (fun h => hch (.inr h))]
              simp only [hparse]
              exact h
            have input : ∃ old' left', s.net.network = some old' ∧ some left = some left' ∧
                (∀ chunk', SmolBranch.read chunk = .read chunk' → ∃ p, SmolStream.parse s.net.checks (old' ++ chunk') = .packet p left') ∧
                ((∀ chunk', SmolBranch.read chunk ≠ .read chunk') → left' = old') :=
              ⟨old, left, hnet, rfl, fun c' hc' => by cases hc'; exact ⟨p, hparse⟩, fun h => absurd rfl (h chunk)⟩
            split at h
            · split at h
              · cases h
                exact ⟨_, [_], [.delivered .pingResp], key _ _ (by
                  simp only [Smol.onPacket, Smol.flushOutgoing, hout, Smol.writeAll, if_true, List.map_nil, List.append_nil]; rfl),
                  rfl, ⟨[], (by exact ⟨rfl, rfl, _, _, rfl⟩), by simp⟩, input, (by exact fun _ => rfl), (fun h => by cases h), by simp, rfl⟩
              · rename_i k
                simp only [SmolWire.cut, hout] at h
                split at h
                · rename_i hk
                  simp only [Bool.and_eq_true, decide_eq_true_eq] at hk
                  cases h
                  exact ⟨_, [_, _], [], key _ _ (by
                    simp only [Smol.onPacket, Smol.flushOutgoing, hout, Smol.writeAll, if_true, List.map_nil, List.append_nil]; rfl),
                    rfl, ⟨_, ⟨.inr ⟨⟨_, .head _⟩, by simp⟩, rfl, by simp, by simp, by simp [writtenIn], hk.2, rfl⟩, rfl⟩, input, (by exact fun _ => rfl), (fun h => by cases h), by simp, by simp [hout]⟩
                · cases h
            · split at h
              · cases h
                exact ⟨_, [_], [.delivered _, _], key _ _ (by simp only [Smol.onPacket, Smol.finish]; rfl),
                  rfl, ⟨[], (by exact ⟨rfl, rfl, _, _, rfl⟩), by simp⟩, input, (by exact fun _ => rfl), (fun h => by cases h), by simp, rfl⟩
              · cases h
            · rename_i hn1 hn2
              split at h
              · rename_i sys q reply shown hs
                split at h
                · split at h
                  · rename_i hsh
                    subst hsh
                    cases h
                    cases hw : Smol.writeAll reply.toList true with
                    | ok x =>
                      exact ⟨_, [_], .delivered p :: reply.toList.map (fun p => .wrote p T.fire T.first), key _ _ (by
                        simp only [Smol.onPacket, hs, Smol.flushOutgoing, hout, List.nil_append, hw]; rfl),
                        rfl, ⟨[], (by exact ⟨rfl, rfl, _, _, rfl⟩), by simp⟩, input, (by exact fun _ => rfl), (fun h => by cases h), by simp, rfl⟩
                    | error e =>
                      exact ⟨_, [_], [.delivered p, _], key _ _ (by
                        simp only [Smol.onPacket, hs, Smol.flushOutgoing, hout, List.nil_append, hw, Smol.finish]; rfl),
                        rfl, ⟨[], (by exact ⟨rfl, rfl, _, _, rfl⟩), by simp⟩, input, (by exact fun _ => rfl), (fun h => by cases h), by simp, rfl⟩
                  · cases h
                · rename_i k
                  simp only [SmolWire.cut, hout, List.nil_append] at h
                  split at h
                  · rename_i hk
                    simp only [Bool.and_eq_true, decide_eq_true_eq] at hk
                    cases h
                    have hw := writeAll_ok hk.1
                    exact ⟨_, if shown then [.read p, .delivered p] else [.read p], reply.toList.map (fun p => .wrote p T.fire T.first), key _ _ (by
                        simp only [Smol.onPacket, hs, Smol.flushOutgoing, hout, List.nil_append, hw]; rfl),
                      rfl, ⟨_, ⟨.inr ⟨⟨p, by cases shown <;> simp⟩, by cases shown <;> simp⟩, by cases shown <;> rfl, by cases reply <;> simp, by cases reply <;> simp,
                        by cases reply <;> simp [writtenIn], hk.2, rfl⟩, rfl⟩, input, (by exact fun _ => rfl), (fun h => by cases h),
                      by cases shown <;> simp; exact fun h => absurd h.symm hn1, by simp [hout]⟩
                  · cases h
              · cases h
          · cases h
      | readError => cases h
      | outgoing =>
        simp only [SmolWire.dropOutgoing] at h
        split at h
        · rename_i k p q hq
          split at h
          · rename_i sys e hs
            simp only [SmolWire.cut] at h
            split at h
            · rename_i hk
              simp only [Bool.and_eq_true, decide_eq_true_eq] at hk
              cases h
              obtain ⟨n, more, hn, hpl⟩ := Smol.onOutgoing_place (s := { s.net with now := T.second }) (T := T) ha hq hk.1 hk.2
              exact ⟨n, [], more, by rw [Smol.turn_outgoing hnet hok]; exact hn, rfl, ⟨_, hpl, rfl⟩,
                ⟨old, old, hnet, hnet, (fun _ h => by cases h), fun _ => rfl⟩, fun h => absurd rfl h, fun _ => Sys.write_false hs, by simp, rfl⟩
            · cases h
          · cases h
        · cases h
      | timer =>
        simp only [SmolWire.dropTimer] at h
        split at h
        · rename_i ht
          split at h
          · split at h
            · rename_i hp
              simp only [SmolWire.cut] at h
              split at h
              · rename_i hk
                simp only [Bool.and_eq_true, decide_eq_true_eq] at hk
                cases h
                have hw := (smol_writePacket_eq _).2 hk.1
                exact ⟨_, [], [_], (by rw [Smol.turn_timer hnet hok]; simp only [Smol.onTimer]; rw [if_pos ht, if_pos hp]; simp only [hw]; rfl), rfl,
                  ⟨_, smol_cutPlace rfl hk.2, rfl⟩, ⟨old, old, hnet, hnet, (fun _ h => by cases h), fun _ => rfl⟩, (by exact fun _ => rfl), (fun h => by cases h), by simp, rfl⟩
              · cases h
            · rename_i hp
              simp only [SmolWire.cut] at h
              split at h
              · rename_i hk
                simp only [Bool.and_eq_true, decide_eq_true_eq] at hk
                cases h
                have hw := (smol_writePacket_eq _).2 hk.1
                exact ⟨_, [], [_, .ended _], (by rw [Smol.turn_timer hnet hok]; simp only [Smol.onTimer]; rw [if_pos ht, if_neg hp]; simp only [hw]; rfl), rfl,
                  ⟨_, smol_cutPlace rfl hk.2, rfl⟩, ⟨old, old, hnet, hnet, (fun _ h => by cases h), fun _ => rfl⟩, (by exact fun _ => rfl), (fun h => by cases h), by simp, rfl⟩
              · cases h
          · cases h
        · cases h
    · cases h
  · cases h

theorem smolPlace_unique {d : DropAt} {seen more : List Obs} {old x y a b : Bytes} (h : SmolPlace d seen more old x a)
    (h' : SmolPlace d seen more old y b) : x = y ∧ a = b := by
  cases d with
  | handling => exact ⟨h.1.trans h'.1.symm, h.2.1.trans h'.2.1.symm⟩
  | writing k =>
    obtain ⟨-, -, -, -, h1, -, h2⟩ := h
    obtain ⟨-, -, -, -, h1', -, h2'⟩ := h'
    rw [h2, h2', h1, h1']
    exact ⟨rfl, rfl⟩

theorem smolPartway_unique {s s1 s2 : SmolWire} {b : SmolBranch} {d : DropAt} {T : Times} {n1 n2 : Smol}
    {seen1 seen2 more1 more2 : List Obs} {obs : List Obs} (h : SmolPartway s b d T n1 seen1 more1 s1 obs)
    (h' : SmolPartway s b d T n2 seen2 more2 s2 obs) : s1 = s2 := by
  obtain rfl : seen1 = seen2 := by have := h.shown.symm.trans h'.shown; simpa using this
  have ht := h.turn.symm.trans h'.turn
  simp only [Option.some.injEq, Prod.mk.injEq, List.append_cancel_left_eq] at ht
  obtain ⟨rfl, rfl⟩ := ht
  obtain ⟨x, hx, hw⟩ := h.wire
  obtain ⟨y, hy, hw'⟩ := h'.wire
  obtain ⟨rfl, hbuf⟩ := smolPlace_unique hx hy
  have hwire : s1.wire = s2.wire := by rw [hw, hw']
  have hinput : s1.net.network = s2.net.network := by
    obtain ⟨c, l, h1, h2, h3, h4⟩ := h.input
    obtain ⟨c', l', h1', h2', h3', h4'⟩ := h'.input
    rw [h1] at h1'; cases h1'
    rw [h2, h2']
    by_cases hb : ∃ chunk, b = .read chunk
    · obtain ⟨chunk, hb⟩ := hb
      obtain ⟨p, hp⟩ := h3 _ hb
      obtain ⟨p', hp'⟩ := h3' _ hb
      rw [hp] at hp'; cases hp'; rfl
    · have hb' : ∀ chunk, b ≠ .read chunk := fun c h => hb ⟨c, h⟩
      rw [h4 hb', h4' hb']
  have hsys : s1.net.sys = s2.net.sys := by
    by_cases hb : b = .outgoing
    · obtain ⟨p, hp⟩ := h.queue hb
      obtain ⟨p', hp'⟩ := h'.queue hb
      have hh := hp.symm.trans hp'
      cases h1 : s1.net.sys; cases h2 : s2.net.sys
      rw [h1, h2] at hh
      simp only [Sys.mk.injEq, List.cons.injEq] at hh ⊢
      grind
    · rw [h.session hb, h'.session hb]
  have hawait : s1.net.await = s2.net.await := by
    by_cases hb : Obs.delivered .pingResp ∈ seen1
    · rw [h.await.1 hb, h'.await.1 hb]
    · rw [h.await.2 hb, h'.await.2 hb]
  have hnet : s1.net = s2.net := by rw [h.rest, h'.rest, hsys, hinput, hawait]
  cases s1; cases s2; simp_all

theorem SmolWire.cut_isSome {s : SmolWire} {ps : List Packet} {k : Nat} {obs : List Obs}
    (hw : (ps.all fun p => p.write.toBool) = true) (hk : k ≤ (s.buffer ++ ps.flatMap smolBytes).length) :
    ∃ s', s.cut ps k obs = some (s', obs ++ [.cancelled]) := by
  exact ⟨_, by simp only [SmolWire.cut]; rw [if_pos (by rw [hw, decide_eq_true hk]; rfl)]⟩

/-- where a turn can be dropped, by what it shows -/
theorem smolPlace_cases {d : DropAt} {seen more full : List Obs} {old bytes buffer : Bytes} (h : SmolPlace d seen more old bytes buffer)
    (hf : seen ++ more = full) :
    (d = .handling ∧ ∃ p rest, full = seen ++ .delivered p :: rest) ∨
    (∃ k, d = .writing k ∧ SmolWrites full ∧ writtenIn seen = [] ∧ (∀ p rest, more ≠ .read p :: rest) ∧
      (∀ p rest, more ≠ .delivered p :: rest) ∧ k ≤ (old ++ (writtenIn more).flatMap smolBytes).length) := by
  subst hf
  cases d with
  | handling =>
    obtain ⟨-, -, p, rest, rfl⟩ := h
    exact .inl ⟨rfl, p, rest, rfl⟩
  | writing k =>
    obtain ⟨h1, h2, h3, h4, h5, h6, -⟩ := h
    exact .inr ⟨k, rfl, h1, h2, h3, h4, h5 ▸ h6⟩

theorem smolWrites_ended {l : List Obs} {e : End} (h : SmolWrites (l ++ [.ended e])) (hl : writtenIn l = []) : False := by
  rcases h with ⟨p, a, b, h⟩ | ⟨-, h⟩
  · rw [List.mem_append] at h
    rcases h with h | h
    · have : p ∈ writtenIn l := by simp only [writtenIn, List.mem_filterMap]; exact ⟨_, h, rfl⟩
      rw [hl] at this; cases this
    · simp at h
  · exact h e (by simp)

theorem smolPlace_ended {d : DropAt} {seen more l : List Obs} {e : End} {old bytes buffer : Bytes}
    (h : SmolPlace d seen more old bytes buffer) (hf : seen ++ more = l ++ [.ended e]) (hl : writtenIn l = []) :
    d = .handling ∧ ∃ p rest, l ++ [.ended e] = seen ++ .delivered p :: rest := by
  rcases smolPlace_cases h hf with h' | ⟨k, rfl, hw, -⟩
  · exact h'
  · exact (smolWrites_ended hw hl).elim

/-- reading: everything up to the first write has been seen -/
theorem smol_seen {pre seen more ws : List Obs} (hf : seen ++ more = pre ++ ws) (hpre : ∀ o ∈ pre, (∃ p, o = .read p) ∨ ∃ p, o = .delivered p)
    (hws : ∀ o ∈ ws, ∃ p a b, o = .wrote p a b) (h2 : writtenIn seen = []) (h3 : ∀ p rest, more ≠ .read p :: rest)
    (h4 : ∀ p rest, more ≠ .delivered p :: rest) : seen = pre ∧ more = ws := by
  rw [List.append_eq_append_iff] at hf
  rcases hf with ⟨t, rfl, rfl⟩ | ⟨t, rfl, rfl⟩
  · cases t with
    | nil => simp
    | cons o t =>
      rcases hpre o (by simp) with ⟨p, rfl⟩ | ⟨p, rfl⟩
      · exact absurd rfl (h3 p _)
      · exact absurd rfl (h4 p _)
  · cases t with
    | nil => simp
    | cons o t =>
      obtain ⟨p, a, b, rfl⟩ := hws o (by simp)
      simp [writtenIn, List.filterMap_append] at h2

theorem SmolWire.dropRead_exists {s : SmolWire} {old chunk : Bytes} {d : DropAt} {T : Times} {n : Smol} {seen more : List Obs}
    {bytes buffer : Bytes} (hout : s.net.outgoing = []) (h : s.net.onRead old chunk true T = some (n, seen ++ more))
    (hp : SmolPlace d seen more s.buffer bytes buffer) : ∃ s', s.dropRead old chunk d = some (s', seen ++ [.cancelled]) := by
  have nothing : ∀ {e : End}, [.ended e] = seen ++ more → False := by
    intro e he
    obtain ⟨-, p, rest, hh⟩ := smolPlace_ended (l := []) hp he.symm rfl
    obtain ⟨-, h'⟩ := seen_cut1 hh
    cases h'
  simp only [Smol.onRead] at h
  simp only [SmolWire.dropRead]
  split at h
  · simp only [Smol.finish, Option.some.injEq, Prod.mk.injEq, List.nil_append] at h
    exact (nothing h.2).elim
  · rename_i hc1
    split at h
    · cases h
    · rename_i hc2
      rw [if_neg (fun h => h.elim hc1 hc2)]
      split at h
      · rename_i p left hparse
        simp only [hparse]
        simp only [Smol.onPacket] at h
        split at h
        · simp only [Smol.flushOutgoing, hout, Smol.writeAll, if_true, List.map_nil, List.append_nil, Option.some.injEq, Prod.mk.injEq] at h
          rcases smolPlace_cases hp h.2.symm with ⟨rfl, q, r, hf⟩ | ⟨k, rfl, hw, h2, h3, h4, hk⟩
          · rcases seen_cut2 hf with ⟨rfl, h'⟩ | ⟨rfl, h'⟩ <;> cases h'
            exact ⟨_, rfl⟩
          · obtain ⟨rfl, rfl⟩ := smol_seen (ws := []) (h.2.symm.trans (List.append_nil _).symm) (by simp) (by simp) h2 h3 h4
            exact SmolWire.cut_isSome (by rw [hout]; rfl) (by rw [hout]; exact hk)
        · simp only [Smol.finish, Option.some.injEq, Prod.mk.injEq] at h
          obtain ⟨rfl, q, r, hf⟩ := smolPlace_ended hp h.2.symm rfl
          rcases seen_cut3 hf with ⟨rfl, h'⟩ | ⟨rfl, h'⟩ | ⟨rfl, h'⟩ <;> cases h'
          exact ⟨_, rfl⟩
        · split at h
          · rename_i sys q reply shown hs
            simp only [hs]
            simp only [Smol.flushOutgoing, hout, List.nil_append] at h
            split at h
            · rename_i hw
              simp only [Option.some.injEq, Prod.mk.injEq] at h
              rcases smolPlace_cases hp h.2.symm with ⟨rfl, q, r, hf⟩ | ⟨k, rfl, hw', h2, h3, h4, hk⟩
              · cases shown <;> cases reply <;> simp only [Option.toList, List.map_cons, List.map_nil, List.append_nil, List.cons_append, List.nil_append, if_true, Bool.false_eq_true, if_false] at hf
                · obtain ⟨rfl, h'⟩ := seen_cut1 hf
                  cases h'
                · rcases seen_cut2 hf with ⟨rfl, h'⟩ | ⟨rfl, h'⟩ <;> cases h'
                · rcases seen_cut2 hf with ⟨rfl, h'⟩ | ⟨rfl, h'⟩ <;> cases h'
                  exact ⟨_, rfl⟩
                · rcases seen_cut3 hf with ⟨rfl, h'⟩ | ⟨rfl, h'⟩ | ⟨rfl, h'⟩ <;> cases h'
                  exact ⟨_, rfl⟩
              · obtain ⟨rfl, rfl⟩ := smol_seen h.2.symm (by cases shown <;> simp) (by simp) h2 h3 h4
                have he : writtenIn (reply.toList.map fun p => .wrote p T.fire T.first) = reply.toList := by cases reply <;> rfl
                rw [he] at hk
                simp only [hout, List.nil_append]
                exact SmolWire.cut_isSome (all_of_writeAll hw) hk
            · simp only [Smol.finish, Option.some.injEq, Prod.mk.injEq] at h
              obtain ⟨rfl, q, r, hf⟩ := smolPlace_ended hp h.2.symm (by cases shown <;> rfl)
              cases shown
              · rcases seen_cut2 hf with ⟨rfl, h'⟩ | ⟨rfl, h'⟩ <;> cases h'
              · rcases seen_cut3 hf with ⟨rfl, h'⟩ | ⟨rfl, h'⟩ | ⟨rfl, h'⟩ <;> cases h'
                exact ⟨_, rfl⟩
          · simp only [Smol.finish, Option.some.injEq, Prod.mk.injEq] at h
            obtain ⟨rfl, q, r, hf⟩ := smolPlace_ended hp h.2.symm rfl
            rcases seen_cut2 hf with ⟨rfl, h'⟩ | ⟨rfl, h'⟩ <;> cases h'
          · simp only [Smol.finish, Option.some.injEq, Prod.mk.injEq] at h
            obtain ⟨rfl, q, r, hf⟩ := smolPlace_ended hp h.2.symm rfl
            rcases seen_cut2 hf with ⟨rfl, h'⟩ | ⟨rfl, h'⟩ <;> cases h'
          · cases h
      · simp only [Option.some.injEq, Prod.mk.injEq] at h
        obtain ⟨rfl, rfl⟩ := List.append_eq_nil_iff.1 h.2.symm
        rcases smolPlace_cases hp rfl with ⟨rfl, q, r, hf⟩ | ⟨k, rfl, hw, -⟩
        · simp at hf
        · rcases hw with ⟨p, a, b, h⟩ | ⟨⟨p, h⟩, -⟩ <;> simp at h
      · simp only [Smol.finish, Option.some.injEq, Prod.mk.injEq, List.nil_append] at h
        exact (nothing h.2).elim
      · simp only [Smol.finish, Option.some.injEq, Prod.mk.injEq, List.nil_append] at h
        exact (nothing h.2).elim

/-- one packet is written -/
theorem smol_one {d : DropAt} {seen more rest : List Obs} {p : Packet} {a b : Nat} {old bytes buffer : Bytes}
    (hp : SmolPlace d seen more old bytes buffer) (hf : .wrote p a b :: rest = seen ++ more)
    (hr : rest = [] ∨ ∃ e, rest = [.ended e]) :
    ∃ k, d = .writing k ∧ seen = [] ∧ k ≤ (old ++ [p].flatMap smolBytes).length := by
  rcases smolPlace_cases hp hf.symm with ⟨rfl, q, r, hf⟩ | ⟨k, rfl, hw', h2, h3, h4, hk⟩
  · rcases hr with rfl | ⟨e, rfl⟩
    · obtain ⟨rfl, h'⟩ := seen_cut1 hf
      cases h'
    · rcases seen_cut2 hf with ⟨rfl, h'⟩ | ⟨rfl, h'⟩ <;> cases h'
  · cases seen with
    | nil =>
      refine ⟨k, rfl, rfl, ?_⟩
      rw [List.nil_append] at hf
      subst hf
      rcases hr with rfl | ⟨e, rfl⟩ <;> exact hk
    | cons o t =>
      simp only [List.cons_append, List.cons.injEq] at hf
      obtain ⟨rfl, -⟩ := hf
      cases h2

theorem SmolWire.dropOutgoing_exists {s : SmolWire} {d : DropAt} {T : Times} {n : Smol} {seen more : List Obs}
    {bytes buffer : Bytes} (ha : s.net.sys.alive = true) (h : s.net.onOutgoing true T = some (n, seen ++ more))
    (hp : SmolPlace d seen more s.buffer bytes buffer) : ∃ s', s.dropOutgoing d = some (s', seen ++ [.cancelled]) := by
  have nothing : ∀ {e : End}, [.ended e] = seen ++ more → False := by
    intro e he
    obtain ⟨-, p, rest, hh⟩ := smolPlace_ended (l := []) hp he.symm rfl
    obtain ⟨-, h'⟩ := seen_cut1 hh
    cases h'
  simp only [Smol.onOutgoing] at h
  simp only [SmolWire.dropOutgoing]
  split at h
  · split at h
    · simp only [Smol.finish, Option.some.injEq, Prod.mk.injEq, List.nil_append] at h
      exact (nothing h.2).elim
    · cases h
  · rename_i p q hq
    have hwf := Sys.write_false_some ha hq
    split at h
    · rw [hwf] at h
      simp only [Smol.finish, Option.some.injEq, Prod.mk.injEq, List.nil_append] at h
      exact (nothing h.2).elim
    · rename_i hw
      have hall := (smol_writePacket_eq p).1 hw
      split at h
      · split at h
        · simp only [Smol.finish, Option.some.injEq, Prod.mk.injEq, List.cons_append, List.nil_append] at h
          obtain ⟨k, rfl, rfl, hk⟩ := smol_one hp h.2 (.inr ⟨_, rfl⟩)
          simp only [hq, hwf]
          exact SmolWire.cut_isSome hall hk
        · simp only [Option.some.injEq, Prod.mk.injEq] at h
          obtain ⟨k, rfl, rfl, hk⟩ := smol_one hp h.2 (.inl rfl)
          simp only [hq, hwf]
          exact SmolWire.cut_isSome hall hk
      · simp only [Smol.finish, Option.some.injEq, Prod.mk.injEq, List.cons_append, List.nil_append] at h
        obtain ⟨k, rfl, rfl, hk⟩ := smol_one hp h.2 (.inr ⟨_, rfl⟩)
        simp only [hq, hwf]
        exact SmolWire.cut_isSome hall hk
      · simp only [Smol.finish, Option.some.injEq, Prod.mk.injEq, List.cons_append, List.nil_append] at h
        obtain ⟨k, rfl, rfl, hk⟩ := smol_one hp h.2 (.inr ⟨_, rfl⟩)
        simp only [hq, hwf]
        exact SmolWire.cut_isSome hall hk
      · cases h

theorem SmolWire.dropTimer_exists {s : SmolWire} {d : DropAt} {T : Times} {n : Smol} {seen more : List Obs}
    {bytes buffer : Bytes} (h : s.net.onTimer true T = some (n, seen ++ more))
    (hp : SmolPlace d seen more s.buffer bytes buffer) : ∃ s', s.dropTimer d T = some (s', seen ++ [.cancelled]) := by
  have nothing : ∀ {e : End}, [.ended e] = seen ++ more → False := by
    intro e he
    obtain ⟨-, p, rest, hh⟩ := smolPlace_ended (l := []) hp he.symm rfl
    obtain ⟨-, h'⟩ := seen_cut1 hh
    cases h'
  simp only [Smol.onTimer] at h
  simp only [SmolWire.dropTimer]
  split at h
  · rename_i ht
    rw [if_pos ht]
    split at h
    · rename_i hpf
      split at h
      · rename_i hw
        simp only [Option.some.injEq, Prod.mk.injEq] at h
        obtain ⟨k, rfl, rfl, hk⟩ := smol_one hp h.2 (.inl rfl)
        simp only
        rw [if_pos hpf]
        exact SmolWire.cut_isSome ((smol_writePacket_eq _).1 hw) hk
      · simp only [Smol.finish, Option.some.injEq, Prod.mk.injEq, List.nil_append] at h
        exact (nothing h.2).elim
    · rename_i hpf
      split at h
      · rename_i hw
        simp only [Smol.finish, Option.some.injEq, Prod.mk.injEq, List.cons_append, List.nil_append] at h
        obtain ⟨k, rfl, rfl, hk⟩ := smol_one hp h.2 (.inr ⟨_, rfl⟩)
        simp only
        rw [if_neg hpf]
        exact SmolWire.cut_isSome ((smol_writePacket_eq _).1 hw) hk
      · simp only [Smol.finish, Option.some.injEq, Prod.mk.injEq, List.nil_append] at h
        exact (nothing h.2).elim
  · cases h

theorem SmolWire.drop_exists {s : SmolWire} {b : SmolBranch} {d : DropAt} {T : Times} {n : Smol} {seen more : List Obs}
    {bytes buffer : Bytes} (hg : s.net.Good) (h : s.net.turn b true T = some (n, seen ++ more))
    (hp : SmolPlace d seen more s.buffer bytes buffer) : ∃ s', s.drop b d T = some (s', seen ++ [.cancelled]) := by
  have hout := hg.outgoing
  obtain ⟨⟨checks, sys, options, keepAlive, perform, lastAction, await, outgoing, network, running, now⟩, wire, buf⟩ := s
  simp only [Smol.turn] at h
  split at h
  · split at h
    · rename_i hok
      simp only [SmolWire.drop]
      rw [if_pos hok]
      cases b with
      | read chunk => exact SmolWire.dropRead_exists (s := ⟨_, wire, buf⟩) hout h hp
      | readError =>
        simp only [Smol.finish, Option.some.injEq, Prod.mk.injEq] at h
        obtain ⟨-, p, rest, hh⟩ := smolPlace_ended hp h.2.symm rfl
        obtain ⟨-, h'⟩ := seen_cut1 hh
        cases h'
      | outgoing => exact SmolWire.dropOutgoing_exists (s := ⟨_, wire, buf⟩) (by simp_all) h hp
      | timer => exact SmolWire.dropTimer_exists (s := ⟨_, wire, buf⟩) h hp
    · cases h
  · cases h

theorem smolPartway_drop {s s' : SmolWire} {b : SmolBranch} {d : DropAt} {T : Times} {n : Smol} {seen more obs : List Obs}
    (hg : s.net.Good) (h : SmolPartway s b d T n seen more s' obs) : s.drop b d T = some (s', obs) := by
  obtain ⟨bytes, hpl, -⟩ := h.wire
  obtain ⟨s2, h2⟩ := SmolWire.drop_exists hg h.turn hpl
  rw [← h.shown] at h2
  obtain ⟨n', seen', more', h'⟩ := SmolWire.drop_partway hg h2
  rw [h2, smolPartway_unique h h']

theorem smol_wire_good (checks : Bool) (o : Options) (t : Nat) (ops : List SmolWireOp) :
    ((SmolWire.new checks o t).runOps ops).1.net.Good := by
  refine history_induct SmolWire.step (fun s _ => s.net.Good) (s := SmolWire.new checks o t) ⟨rfl, by simp [SmolWire.new, Smol.new]⟩ ?_ ops
  intro s tr op s' ob hg hs
  cases op with
  | op op =>
    simp only [SmolWire.step] at hs
    split at hs
    · rename_i hn
      cases hs
      exact (Smol.step_vstep hg hn).2
    · cases hs
  | drop b d T => exact (SmolWire.drop_facts (show s.drop b d T = some (s', ob) from hs)).good hg
  | dropConnect i d =>
    obtain ⟨i', obs', -, hn', -⟩ := SmolWire.dropConnect_failed hs
    exact (Smol.step_vstep hg hn').2

theorem writes_iff (obs : List Obs) : SmolWire.writes obs = true ↔ SmolWrites obs := by
  simp only [SmolWire.writes, Bool.or_eq_true, Bool.and_eq_true, List.any_eq_true, Bool.not_eq_true', SmolWrites,
    List.any_eq_false]
  constructor
  · rintro (⟨x, hx, h⟩ | ⟨⟨x, hx, h⟩, hn⟩)
    · split at h
      · exact .inl ⟨_, _, _, hx⟩
      · cases h
    · split at h
      · exact .inr ⟨⟨_, hx⟩, fun e he => hn _ he rfl⟩
      · cases h
  · rintro (⟨p, a, b, h⟩ | ⟨⟨p, h⟩, hn⟩)
    · exact .inl ⟨_, h, rfl⟩
    · refine .inr ⟨⟨_, h, rfl⟩, fun x hx he => ?_⟩
      split at he
      · exact hn _ hx
      · cases he

end Mqrstt
