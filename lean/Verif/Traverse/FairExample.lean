import Verif.Traverse.Fair
import Verif.Traverse.Examples

/-!
# A fair execution of the one-sided protocol

Two ranks with one cell each that send to each other, with buffered sends.
-/
namespace Verif.Traverse
open Classical List

/-- `capCfg` with sends that complete at once. -/
def bufCfg : Cfg Unit Unit := { capCfg with rendezvous := false }

theorem buf_mate_none {x : Loc} (hx : bufCfg.In x) (h : exMate x = none) : x.face ≠ 0 := by
  intro hf
  have h1 : x.rank < 2 := hx.1
  have h2 : x.cell < 1 := hx.2
  unfold exMate at h
  rw [if_pos ⟨hf, by omega, h1⟩] at h
  simp at h

theorem buf_linked : Linked bufCfg exMate where
  threads := by show 0 < 1; decide
  size := by intro r hr; show 2 * 1 < 2 ^ 64; decide
  mate_in := by
    intro x y _ h
    rcases exMate_some h with ⟨rfl, rfl⟩ | ⟨rfl, rfl⟩ <;> exact ⟨by show _ < 2; decide, by show 0 < 1; decide⟩
  mate_symm := by
    intro x y _ h
    rcases exMate_some h with ⟨rfl, rfl⟩ | ⟨rfl, rfl⟩ <;> rfl
  near := by
    intro x y _ h hr
    rcases exMate_some h with ⟨rfl, rfl⟩ | ⟨rfl, rfl⟩ <;> simp at hr
  far := by
    intro x y _ h _
    rcases exMate_some h with ⟨rfl, rfl⟩ | ⟨rfl, rfl⟩ <;> exact ⟨rfl, rfl⟩
  ext := by
    intro x hx h
    have := buf_mate_none hx h
    refine ⟨rfl, ?_⟩
    show (if x.face = 0 then some (1 - x.rank) else none) = none
    rw [if_neg this]
  side_eq := by
    intro x y _ h _
    rcases exMate_some h with ⟨rfl, rfl⟩ | ⟨rfl, rfl⟩ <;> rfl
  side_cell := by
    intro x y _ h _
    rcases exMate_some h with ⟨rfl, rfl⟩ | ⟨rfl, rfl⟩ <;> rfl
  side_inj := by
    intro x x' y y' _ _ h h' _ _ hr _
    rcases exMate_some h with ⟨rfl, rfl⟩ | ⟨rfl, rfl⟩ <;>
    rcases exMate_some h' with ⟨rfl, rfl⟩ | ⟨rfl, rfl⟩ <;> first | rfl | simp at hr
  orient := by
    intro x y a _ h ha
    have ha : a < 2 := ha
    rcases exMate_some h with ⟨rfl, rfl⟩ | ⟨rfl, rfl⟩ <;> interval_cases a <;> decide

theorem buf_crossed : Crossed bufCfg exMate := by
  intro x y a _ h ha
  have ha : a < 2 := ha
  rcases exMate_some h with ⟨rfl, rfl⟩ | ⟨rfl, rfl⟩ <;> interval_cases a <;> decide

theorem buf_acyclic : Acyclic bufCfg exMate := by
  intro a ha t h
  have ha : a < 2 := ha
  have key : ∀ t t', Before bufCfg exMate a t t' → (a = 0 → t.1 < t'.1) ∧ (a = 1 → t'.1 < t.1) := by
    rintro t t' ⟨x, y, _, hm, ⟨hin, _⟩, rfl, rfl⟩
    rcases exMate_some hm with ⟨rfl, rfl⟩ | ⟨rfl, rfl⟩ <;> interval_cases a
    · exact absurd hin (by decide)
    · simp
    · simp
    · exact absurd hin (by decide)
  have key2 : ∀ t t', Relation.TransGen (Before bufCfg exMate a) t t' → (a = 0 → t.1 < t'.1) ∧ (a = 1 → t'.1 < t.1) := by
    intro t t' h
    induction h with
    | single h => exact key _ _ h
    | tail _ h ih =>
      have := key _ _ h
      exact ⟨fun h0 => (ih.1 h0).trans (this.1 h0), fun h0 => (this.2 h0).trans (ih.2 h0)⟩
  have := key2 t t h
  interval_cases a
  · exact absurd (this.1 rfl) (lt_irrefl _)
  · exact absurd (this.2 rfl) (lt_irrefl _)

/-- Continue a finite execution for ever. -/
theorem Run.sequence {D B : Type} {cfg : Cfg D B} {n : Nat} {s s' : State D B} (h : Run cfg n s s') :
    ∃ σ : Nat → State D B, σ 0 = s ∧ (∀ k < n, Step cfg (σ k) (σ (k + 1))) ∧ ∀ k ≥ n, σ k = s' := by
  induction h with
  | nil s => exact ⟨fun _ => s, rfl, by intro k hk; omega, fun _ _ => rfl⟩
  | @snoc n s s' s'' _ hs ih =>
    obtain ⟨σ, h0, h1, h2⟩ := ih
    refine ⟨fun k => if k ≤ n then σ k else s'', by simp [h0], ?_, ?_⟩
    · intro k hk
      by_cases e : k = n
      · subst e
        simp only [le_refl, if_true, Nat.not_succ_le_self, if_false, h2 k (le_refl _)]
        exact hs
      · simp only [show k ≤ n by omega, show k + 1 ≤ n by omega, if_true]
        exact h1 k (by omega)
    · intro k hk
      simp only [show ¬ k ≤ n by omega, if_false]

set_option maxRecDepth 100000 in
theorem buf_run : ∃ n s, Run bufCfg n (initState bufCfg) s ∧ ∀ r < 2, (s.rank r).phase = .finished := by
  have sd : ∀ (s : State Unit Unit) r, sendsDone bufCfg s r := fun s r h => by simp [bufCfg] at h
  have s1 := Run.snoc (.nil _) (Step.compute (cfg := bufCfg) (initState bufCfg) 0 0 (fun _ => 0) [] []
    ⟨0, 0, 0⟩ (by decide) (by decide) rfl rfl (by decide) (by decide))
  have s2 := Run.snoc s1 (Step.compute (cfg := bufCfg) _ 1 0 (fun _ => 0) [] []
    ⟨0, 1, 0⟩ (by decide) (by decide) rfl rfl (by decide) (by decide))
  have hd : ∀ (queue : Nat → List Tuple), ∀ g < bufCfg.nThreads, queue g = [] ∨ ¬ (setAt (fun _ => 0) 0 1 : Nat → Nat) g < bufCfg.maxCompute := by
    intro queue g hg; right; have : g < 1 := hg; interval_cases g; decide
  have s3 := Run.snoc s2 (Step.send (cfg := bufCfg) _ 0 (setAt (fun _ => 0) 0 1) (by decide) rfl (hd _) rfl)
  have s4 := Run.snoc s3 (Step.send (cfg := bufCfg) _ 1 (setAt (fun _ => 0) 0 1) (by decide) rfl (hd _) rfl)
  have s5 := Run.snoc s4 (Step.recv (cfg := bufCfg) _ 0 1 false [] [] [] (.packets [⟨0, 1, ()⟩]) [] (by decide) rfl rfl
    (fun _ => ⟨rfl, sd _ _⟩))
  have s6 := Run.snoc s5 (Step.recv (cfg := bufCfg) _ 1 0 false [] [] [] (.packets [⟨0, 0, ()⟩]) [] (by decide) rfl rfl
    (fun _ => ⟨rfl, sd _ _⟩))
  have s7 := Run.snoc s6 (Step.unpack (cfg := bufCfg) _ 0 _ (by decide) rfl (sd _ _))
  have s8 := Run.snoc s7 (Step.unpack (cfg := bufCfg) _ 1 _ (by decide) rfl (sd _ _))
  have s9 := Run.snoc s8 (Step.compute (cfg := bufCfg) _ 0 0 (fun _ => 0) [] []
    ⟨0, 1, 0⟩ (by decide) (by decide) rfl rfl (by decide) (by decide))
  have s10 := Run.snoc s9 (Step.compute (cfg := bufCfg) _ 1 0 (fun _ => 0) [] []
    ⟨0, 0, 0⟩ (by decide) (by decide) rfl rfl (by decide) (by decide))
  have s11 := Run.snoc s10 (Step.send (cfg := bufCfg) _ 0 (setAt (fun _ => 0) 0 1) (by decide) rfl (hd _) rfl)
  have s12 := Run.snoc s11 (Step.send (cfg := bufCfg) _ 1 (setAt (fun _ => 0) 0 1) (by decide) rfl (hd _) rfl)
  have s13 := Run.snoc s12 (Step.miss (cfg := bufCfg) _ 0 1 false [] [] (by decide) rfl rfl (sd _ _))
  have s14 := Run.snoc s13 (Step.miss (cfg := bufCfg) _ 1 0 false [] [] (by decide) rfl rfl (sd _ _))
  have s15 := Run.snoc s14 (Step.unpack (cfg := bufCfg) _ 0 [] (by decide) rfl (sd _ _))
  have s16 := Run.snoc s15 (Step.unpack (cfg := bufCfg) _ 1 [] (by decide) rfl (sd _ _))
  exact ⟨_, _, s16, fun r hr => by interval_cases r <;> rfl⟩

/-- `capsaicin_finishes` and `traverse_returns_partial` apply: there is a maximal fair execution. -/
example : ∃ σ, Maximal bufCfg σ ∧ Fair bufCfg σ ∧ ∃ n, ∀ n' ≥ n, ∀ r < 2, ((σ n').rank r).phase = .finished := by
  obtain ⟨n, s, hrun, hf⟩ := buf_run
  obtain ⟨σ, h0, h1, h2⟩ := hrun.sequence
  have hstop : ¬ ∃ s', Step bufCfg s s' := by
    rintro ⟨s', hs⟩
    cases hs with
    | compute r g steps l1 l2 t hr hg hphase => rw [hf r hr] at hphase; simp at hphase
    | skip r steps hr hphase => rw [hf r hr] at hphase; simp at hphase
    | send r steps hr hphase => rw [hf r hr] at hphase; simp at hphase
    | kill r hr hphase => rw [hf r hr] at hphase; simp at hphase
    | recv r q kill p1 p2 got m ms hr hphase hchan hcap => rw [hf r hr] at hphase; simp at hphase
    | miss r q kill ps got hr hphase hcap hsends => rw [hf r hr] at hphase; simp at hphase
    | unpack r got hr hphase hsends => rw [hf r hr] at hphase; simp at hphase
    | close r got hr hphase hsends => rw [hf r hr] at hphase; simp at hphase
  have hm : Maximal bufCfg σ := by
    refine ⟨h0, fun k => ?_⟩
    by_cases hk : k < n
    · exact Or.inl (h1 k hk)
    · rw [h2 k (by omega), h2 (k + 1) (by omega)]
      exact Or.inr ⟨hstop, rfl⟩
  have hF : Fair bufCfg σ := fair_of_finished (n := n) (fun n' hn' => by rw [h2 n' hn', h2 n (le_refl _)])
    (by rw [h2 n (le_refl _)]; exact hf)
  exact ⟨σ, hm, hF, capsaicin_finishes buf_linked (by decide) rfl rfl rfl buf_crossed buf_acyclic hm hF⟩

end Verif.Traverse
