import Verif.Traverse.Lemmas5
import Mathlib.Data.Finset.Max

set_option linter.unusedSectionVars false

namespace Verif.Traverse
open Classical List

variable {D B : Type}

/-! ### No deadlock -/

theorem exists_top (l : List Tuple) (h : l ≠ []) :
    ∃ l1 t l2, l = l1 ++ t :: l2 ∧ ∀ t' ∈ l, t'.priority ≤ t.priority := by
  obtain ⟨t0, ht0⟩ := List.exists_mem_of_ne_nil l h
  obtain ⟨t, ht, hmax⟩ := Finset.exists_max_image l.toFinset Tuple.priority
    ⟨t0, List.mem_toFinset.2 ht0⟩
  obtain ⟨l1, l2, heq⟩ := List.append_of_mem (List.mem_toFinset.1 ht)
  exact ⟨l1, t, l2, heq, fun t' ht' => hmax t' (List.mem_toFinset.2 ht')⟩

/-- A rank that is computing can always take a step. -/
theorem computing_step {cfg : Cfg D B} {s : State D B} {r : Nat} (hr : r < cfg.nRanks)
    {steps : Nat → Nat} (hphase : (s.rank r).phase = .computing steps) : ∃ s', Step cfg s s' := by
  by_cases h : ∃ g < cfg.nThreads, (s.rank r).queue g ≠ [] ∧ steps g < cfg.maxCompute
  · obtain ⟨g, hg, hne, hst⟩ := h
    obtain ⟨l1, t, l2, heq, htop⟩ := exists_top _ hne
    exact ⟨_, Step.compute s r g steps l1 l2 t hr hg hphase heq htop hst⟩
  · have hdone : ∀ g < cfg.nThreads, (s.rank r).queue g = [] ∨ ¬ steps g < cfg.maxCompute := by
      intro g hg
      by_contra hno
      rw [not_or, not_not] at hno
      exact h ⟨g, hg, hno⟩
    cases hd : cfg.doComm with
    | true => exact ⟨_, Step.send s r steps hr hphase hdone hd⟩
    | false => exact ⟨_, Step.skip s r steps hr hphase hdone hd⟩

section
variable {cfg : Cfg D B} {mate : Loc → Option Loc} (L : Linked cfg mate) {s : State D B}
  (I : Inv cfg mate s) (P : Proto cfg s) (hd : cfg.doComm = true) (ht : cfg.protocol = .tycho)
include L I P hd ht

theorem recv_step {r q : Nat} (hr : r < cfg.nRanks) (hp : q ∈ (s.rank r).phase.pending)
    (hc : s.chan q r ≠ []) : ∃ s', Step cfg s s' := by
  rcases hph : (s.rank r).phase with steps | ⟨kill, ps, got⟩ | _ | _
  · rw [hph] at hp; simp [Phase.pending] at hp
  · rw [hph] at hp
    simp only [Phase.pending] at hp
    obtain ⟨p1, p2, heq⟩ := List.append_of_mem hp
    subst heq
    rcases hm : s.chan q r with _ | ⟨m, ms⟩
    · exact absurd hm hc
    · exact ⟨_, Step.recv s r q kill p1 p2 got m ms hr hph hm (fun h => by rw [ht] at h; simp at h)⟩
  · rw [hph] at hp; simp [Phase.pending] at hp
  · rw [hph] at hp; simp [Phase.pending] at hp

theorem tycho_progress (hnf : ∃ r < cfg.nRanks, (s.rank r).phase ≠ .finished) :
    ∃ s', Step cfg s s' := by
  obtain ⟨r0, hr0, hf0⟩ := hnf
  obtain ⟨r, hrm, hmin⟩ := Finset.exists_min_image
    ((Finset.range cfg.nRanks).filter fun r => (s.rank r).phase ≠ .finished)
    (fun r => (s.rank r).round) ⟨r0, by simp [hr0, hf0]⟩
  simp only [Finset.mem_filter, Finset.mem_range] at hrm hmin
  obtain ⟨hr, hrf⟩ := hrm
  rcases hph : (s.rank r).phase with steps | ⟨k, ps, got⟩ | _ | _
  · exact computing_step hr hph
  · have hpe : (s.rank r).phase.pending = ps := by rw [hph]; rfl
    cases ps with
    | cons q ps =>
      have hqp : q ∈ (s.rank r).phase.pending := by rw [hpe]; simp
      obtain ⟨hqadj, hqdark, hqrec⟩ := P.pend r hr q hqp
      obtain ⟨hqlt, hradj, hqr⟩ := adj_lt L hr hqadj
      apply recv_step L I P hd ht hr hqp
      intro hnil
      have hflow := P.flow q r
      rw [hnil] at hflow
      simp at hflow
      cases hdk : (s.rank q).dark r with
      | true =>
        obtain ⟨-, -, h3, h4, -⟩ := P.dark q r hdk
        have hflow2 := P.flow r q
        rw [h4] at hflow2
        simp at hflow2
        have := P.sent_eq r hr q hqadj hqdark
        omega
      | false =>
        have hs := P.sent_eq q hqlt r hradj hdk
        by_cases hqf : (s.rank q).phase = .finished
        · rcases P.told q hqlt r hradj (by rw [hqf]; trivial) hdk with h | ⟨l, h⟩
          · rw [hqdark] at h; simp at h
          · rw [hnil] at h; simp at h
        · have := hmin q ⟨hqlt, hqf⟩
          omega
    | nil =>
      by_cases hsd : sendsDone cfg s r
      · cases k with
        | false => exact ⟨_, Step.unpack s r got hr hph hsd⟩
        | true => exact ⟨_, Step.close s r got hr hph hsd⟩
      · unfold sendsDone at hsd
        push Not at hsd
        obtain ⟨-, q, hne⟩ := hsd
        obtain ⟨-, hqadj⟩ := P.chans r q hne
        obtain ⟨hqlt, hradj, hqr⟩ := adj_lt L hr hqadj
        have hqd : (s.rank q).dark r = false := by
          by_contra h
          exact hne (P.dark q r (by simpa using h)).2.2.2.1
        have hflow := P.flow r q
        have hlen : 0 < (s.chan r q).length := List.length_pos_iff.2 hne
        by_cases hpq : r ∈ (s.rank q).phase.pending
        · exact recv_step L I P hd ht hqlt hpq hne
        · exfalso
          have hrec := P.got_all q hqlt r hradj hqd hpq
          have hsq := P.sent_eq q hqlt r hradj hqd
          have hflow2 := P.flow q r
          cases hdk : (s.rank r).dark q with
          | true =>
            obtain ⟨-, -, h3, h4, -⟩ := P.dark r q hdk
            rw [h4] at hflow2
            simp at hflow2
            omega
          | false =>
            have hsr := P.sent_eq r hr q hqadj hdk
            have hgr := P.got_all r hr q hqadj hdk (by rw [hpe]; simp)
            by_cases hqf : (s.rank q).phase = .finished
            · rcases P.told q hqlt r hradj (by rw [hqf]; trivial) hqd with h | ⟨l, h⟩
              · rw [hdk] at h; simp at h
              · rw [h] at hflow2; simp at hflow2; omega
            · have := hmin q ⟨hqlt, hqf⟩
              omega
  · exact ⟨_, Step.kill s r hr hph⟩
  · exact absurd hph hrf

end

/-- Without communication no rank is ever in an exchange. -/
theorem nocomm_phase {cfg : Cfg D B} (hd : cfg.doComm = false) {s : State D B} (h : Reachable cfg s)
    (r : Nat) : (s.rank r).phase.isComputing ∨ (s.rank r).phase = .finished := by
  have hl : ∀ n, (loopTest (B := B) cfg n).isComputing ∨ loopTest (B := B) cfg n = .finished := by
    intro n
    unfold loopTest
    split
    · exact Or.inl trivial
    · rw [if_neg (by simp [hd])]; exact Or.inr rfl
  induction h generalizing r with
  | init => exact hl _
  | step h0 hs ih =>
    cases hs with
    | compute r' g steps l1 l2 t hr hg hphase hq htop hsteps =>
      dsimp only
      by_cases h : r = r'
      · subst h; rw [setAt_same]; exact Or.inl trivial
      · rw [setAt_ne _ _ h]; exact ih r
    | skip r' steps hr hphase hdone hcomm =>
      dsimp only
      by_cases h : r = r'
      · subst h; rw [setAt_same]; exact hl _
      · rw [setAt_ne _ _ h]; exact ih r
    | send r' steps hr hphase hdone hcomm => rw [hd] at hcomm; simp at hcomm
    | kill r' hr hphase => rcases ih r' with h | h <;> rw [hphase] at h <;> simp [Phase.isComputing] at h
    | recv r' q kill p1 p2 got m ms hr hphase hchan hcap =>
      rcases ih r' with h | h <;> rw [hphase] at h <;> simp [Phase.isComputing] at h
    | miss r' q kill ps got hr hphase hcap hsends =>
      rcases ih r' with h | h <;> rw [hphase] at h <;> simp [Phase.isComputing] at h
    | unpack r' got hr hphase hsends =>
      rcases ih r' with h | h <;> rw [hphase] at h <;> simp [Phase.isComputing] at h
    | close r' got hr hphase hsends =>
      rcases ih r' with h | h <;> rw [hphase] at h <;> simp [Phase.isComputing] at h

end Verif.Traverse
