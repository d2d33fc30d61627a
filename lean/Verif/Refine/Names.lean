import Verif.Refine.Faces
import Mathlib.Data.Sym.Sym2

/-!
# Which children can share a triangle
-/
set_option linter.unusedSectionVars false
set_option linter.unusedVariables false

namespace Verif.Refine

/-- The corner `k` of child `t` of a cell with nodes `n`, diagonal `d`: the pair of nodes it is half way
between. -/
def name (n : Fin 4 → Nat) (d : Fin 3) (t : Fin 8) (k : Fin 4) : Sym2 Nat := s(n (lbl d t k).1, n (lbl d t k).2)

/-- The names of the corners of triangle `g` of child `t`. -/
def triNames (n : Fin 4 → Nat) (d : Fin 3) (t : Fin 8) (g : Fin 4) : Set (Sym2 Nat) := {z | ∃ k, k ≠ g ∧ z = name n d t k}

theorem lbl_le (d : Fin 3) (t : Fin 8) (k : Fin 4) : (lbl d t k).1 ≤ (lbl d t k).2 := by
  revert d t k; decide +kernel

theorem lbl_inj (d : Fin 3) (t : Fin 8) (k k' : Fin 4) (h : lbl d t k = lbl d t k') : k = k' := by
  revert d t k k'; decide +kernel

theorem name_lbl {n : Fin 4 → Nat} (hn : Function.Injective n) {d : Fin 3} {t t' : Fin 8} {k k' : Fin 4} :
    name n d t k = name n d t' k' ↔ lbl d t k = lbl d t' k' := by
  constructor
  · intro h
    have h1 := lbl_le d t k
    have h2 := lbl_le d t' k'
    simp only [name, Sym2.eq_iff] at h
    rcases h with ⟨a, b⟩ | ⟨a, b⟩
    · exact Prod.ext (hn a) (hn b)
    · have a := hn a
      have b := hn b
      refine Prod.ext ?_ ?_
      · apply le_antisymm
        · rw [← b]; exact h1
        · rw [a]; exact h2
      · apply le_antisymm
        · rw [b]; exact h2
        · rw [← a]; exact h1
  · intro h; simp only [name, h]

theorem name_inj {n : Fin 4 → Nat} (hn : Function.Injective n) (d : Fin 3) (t : Fin 8) : Function.Injective (name n d t) :=
  fun k k' h => lbl_inj d t k k' ((name_lbl hn).1 h)

/-- The corners of the parent that the triangle uses. -/
def Uses (d : Fin 3) (t : Fin 8) (g a : Fin 4) : Prop := ∃ k, k ≠ g ∧ ((lbl d t k).1 = a ∨ (lbl d t k).2 = a)

instance (d : Fin 3) (t : Fin 8) (g a : Fin 4) : Decidable (Uses d t g a) :=
  inferInstanceAs (Decidable (∃ k, k ≠ g ∧ ((lbl d t k).1 = a ∨ (lbl d t k).2 = a)))

theorem uses_cases (d : Fin 3) (t : Fin 8) (g : Fin 4) : (∀ a, Uses d t g a) ∨ ∃ f, ∀ a, Uses d t g a ↔ a ≠ f := by
  revert d t g; decide +kernel

/-- A number for the set of names of a triangle. -/
def code (d : Fin 3) (t : Fin 8) (g : Fin 4) : Nat :=
  ((List.finRange 4).filter (· ≠ g)).foldl (fun s k => s + 2 ^ (4 * (lbl d t k).1.val + (lbl d t k).2.val)) 0

theorem code_eq (d : Fin 3) (t : Fin 8) (g : Fin 4) (t' : Fin 8) (g' : Fin 4)
    (h : ∀ k, k ≠ g → ∃ k', k' ≠ g' ∧ lbl d t k = lbl d t' k') : code d t g = code d t' g' := by
  revert d t g t' g'; decide +kernel

theorem two_share (d : Fin 3) (t : Fin 8) (g : Fin 4) (t' : Fin 8) (g' : Fin 4) (h : code d t g = code d t' g') (ht : t ≠ t') :
    ∀ a, Uses d t g a := by
  revert d t g t' g'; decide +kernel

theorem partner (d : Fin 3) (t : Fin 8) (g : Fin 4) : ∃ u, ∀ t' g', t' ≠ t → code d t g = code d t' g' → t' = u := by
  revert d t g; decide +kernel

theorem triNames_code {n : Fin 4 → Nat} (hn : Function.Injective n) {d : Fin 3} {t t' : Fin 8} {g g' : Fin 4}
    (h : triNames n d t g = triNames n d t' g') : code d t g = code d t' g' := by
  refine code_eq d t g t' g' fun k hk => ?_
  have : name n d t k ∈ triNames n d t' g' := by rw [← h]; exact ⟨k, hk, rfl⟩
  obtain ⟨k', hk', e⟩ := this
  exact ⟨k', hk', (name_lbl hn).1 e⟩

/-- A node used by a triangle is a node of each cell that has the triangle. -/
theorem uses_node {n n' : Fin 4 → Nat} {d d' : Fin 3} {t t' : Fin 8} {g g' : Fin 4}
    (h : triNames n d t g = triNames n' d' t' g') {a : Fin 4} (ha : Uses d t g a) : ∃ b, n a = n' b := by
  obtain ⟨k, hk, hka⟩ := ha
  have : name n d t k ∈ triNames n' d' t' g' := by rw [← h]; exact ⟨k, hk, rfl⟩
  obtain ⟨k', hk', e⟩ := this
  have hm : n a ∈ name n d t k := by
    rcases hka with rfl | rfl
    · exact Sym2.mem_mk_left _ _
    · exact Sym2.mem_mk_right _ _
  rw [e] at hm
  rcases Sym2.mem_iff.1 hm with h | h
  · exact ⟨_, h⟩
  · exact ⟨_, h⟩

end Verif.Refine
