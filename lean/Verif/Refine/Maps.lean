import Verif.Refine.Model
import Mathlib.Tactic.Linarith
import Mathlib.Tactic.FinCases
import Mathlib.Data.List.Basic

/-!
# The two maps of the refinement
-/
set_option linter.unusedSectionVars false
set_option linter.unusedVariables false

namespace Verif.Refine

open Verif.MeshFile

/-- Neither key is less than the other. -/
def Eqv {α : Type} (lt : α → α → Bool) (a b : α) : Prop := lt a b = false ∧ lt b a = false

/-- The comparison is a strict weak order on a set of keys. -/
structure WeakOn {α : Type} (lt : α → α → Bool) (P : α → Prop) : Prop where
  irrefl : ∀ a, P a → lt a a = false
  trans : ∀ a b c, P a → P b → P c → lt a b = true → lt b c = true → lt a c = true
  eqv : ∀ a b c, P a → P b → P c → Eqv lt a b → Eqv lt b c → Eqv lt a c

theorem WeakOn.list {α : Type} {lt : α → α → Bool} {P : α → Prop} (W : WeakOn lt P) {l : List α} (h : ∀ a ∈ l, P a) :
    StrictWeak lt l :=
  ⟨fun a ha => W.irrefl a (h a ha), fun a ha b hb c hc => W.trans a b c (h a ha) (h b hb) (h c hc),
    fun a ha b hb c hc => W.eqv a b c (h a ha) (h b hb) (h c hc)⟩

theorem Eqv.symm {α : Type} {lt : α → α → Bool} {a b : α} (h : Eqv lt a b) : Eqv lt b a := ⟨h.2, h.1⟩

/-- Looking up in a map that numbers its keys in order. -/
theorem mapFind_zip {α : Type} {lt : α → α → Bool} {P : α → Prop} (W : WeakOn lt P) {keys : List α} {q : α}
    (hk : ∀ a ∈ keys, P a) (hq : P q) :
    (∃ i k, keys[i]? = some k ∧ Eqv lt k q ∧ mapFind lt keys.zipIdx q = some i) ∨
      ((∀ k ∈ keys, ¬ Eqv lt k q) ∧ mapFind lt keys.zipIdx q = some invalid) := by
  have hw : StrictWeak lt (q :: keys.zipIdx.map Prod.fst) := by
    refine W.list fun a ha => ?_
    rcases List.mem_cons.1 ha with rfl | ha
    · exact hq
    · rw [List.zipIdx_map_fst] at ha; exact hk a ha
  simp only [mapFind, if_pos hw]
  cases hf : keys.zipIdx.find? (fun e => !lt e.1 q && !lt q e.1) with
  | none =>
    right
    refine ⟨fun k hk' he => ?_, rfl⟩
    obtain ⟨i, hi⟩ := List.mem_iff_getElem?.1 hk'
    have := List.find?_eq_none.1 hf (k, i) (List.mem_zipIdx_iff_getElem?.2 hi)
    simp [he.1, he.2] at this
  | some e =>
    left
    have h1 := List.find?_some hf
    have h2 := List.mem_zipIdx_iff_getElem?.1 (List.mem_of_find?_eq_some hf)
    simp at h1
    exact ⟨e.2, e.1, h2, h1, rfl⟩

/-! ### Faces -/

theorem faceLt_eqv {f g : Fin 3 → Nat} : Eqv faceLt f g ↔ orderFaceNodes f = orderFaceNodes g := by
  constructor
  · rintro ⟨h1, h2⟩
    simp only [faceLt] at h1 h2
    have : orderFaceNodes f 0 = orderFaceNodes g 0 ∧ orderFaceNodes f 1 = orderFaceNodes g 1 ∧
        orderFaceNodes f 2 = orderFaceNodes g 2 := by
      split_ifs at h1 h2; omega
    funext i
    match i with
    | 0 => exact this.1
    | 1 => exact this.2.1
    | 2 => exact this.2.2
  · intro h
    constructor <;> simp [faceLt, h]

theorem faceLt_iff {f g : Fin 3 → Nat} : faceLt f g = true ↔
    orderFaceNodes f 0 < orderFaceNodes g 0 ∨ (orderFaceNodes f 0 = orderFaceNodes g 0 ∧
      (orderFaceNodes f 1 < orderFaceNodes g 1 ∨ (orderFaceNodes f 1 = orderFaceNodes g 1 ∧
        orderFaceNodes f 2 < orderFaceNodes g 2))) := by
  simp only [faceLt]
  split_ifs <;> simp <;> omega

theorem faceLt_weak : WeakOn faceLt fun _ => True where
  irrefl a _ := by simp [faceLt]
  trans a b c _ _ _ h1 h2 := by
    rw [faceLt_iff] at *
    omega
  eqv a b c _ _ _ h1 h2 := by
    rw [faceLt_eqv] at *
    exact h1.trans h2

/-- Ordering the nodes of a face keeps the set. -/
theorem order_mem (f : Fin 3 → Nat) (n : Nat) : (∃ j, orderFaceNodes f j = n) ↔ ∃ j, f j = n := by
  simp only [Fin.exists_fin_succ, orderFaceNodes]
  simp
  split_ifs <;> omega

/-- Two faces of three different nodes are the same to the map exactly when they have the same nodes. -/
theorem order_eq {f g : Fin 3 → Nat} (hf : Function.Injective f) (hg : Function.Injective g) :
    orderFaceNodes f = orderFaceNodes g ↔ ∀ n, (∃ j, f j = n) ↔ ∃ j, g j = n := by
  constructor
  · intro h n
    rw [← order_mem f, ← order_mem g, h]
  · intro h
    have d1 : f 0 ≠ f 1 := fun e => absurd (hf e) (by decide)
    have d2 : f 0 ≠ f 2 := fun e => absurd (hf e) (by decide)
    have d3 : f 1 ≠ f 2 := fun e => absurd (hf e) (by decide)
    have e1 : g 0 ≠ g 1 := fun e => absurd (hg e) (by decide)
    have e2 : g 0 ≠ g 2 := fun e => absurd (hg e) (by decide)
    have e3 : g 1 ≠ g 2 := fun e => absurd (hg e) (by decide)
    have h0 := h (f 0)
    have h1 := h (f 1)
    have h2 := h (f 2)
    simp only [Fin.exists_fin_succ] at h0 h1 h2
    simp at h0 h1 h2
    funext i
    fin_cases i <;> simp only [orderFaceNodes] <;> simp <;> (try split_ifs) <;> omega

/-! ### Nodes -/

variable {K : Type} [Field K] [LinearOrder K] [IsStrictOrderedRing K]

/-- Two coordinates are within the tolerance. -/
def Near (tol a b : K) : Prop := a ≤ b + tol ∧ b ≤ a + tol

/-- The points are within the tolerance in each coordinate. -/
def NearPt (tol : K) (p q : Pt K) : Prop := ∀ i, Near tol (p i) (q i)

theorem nodeLt_eqv {tol : K} (ht : 0 ≤ tol) {p q : Pt K} : Eqv (nodeLt tol) p q ↔ NearPt tol p q := by
  have h3 : NearPt tol p q ↔ Near tol (p 0) (q 0) ∧ Near tol (p 1) (q 1) ∧ Near tol (p 2) (q 2) := by
    constructor
    · intro h; exact ⟨h 0, h 1, h 2⟩
    · rintro ⟨a, b, c⟩ i
      match i with
      | 0 => exact a
      | 1 => exact b
      | 2 => exact c
  rw [h3]
  simp only [Eqv, nodeLt, Near]
  constructor
  · rintro ⟨h1, h2⟩
    split_ifs at h1 <;> split_ifs at h2 <;> first | (exfalso; linarith) | (simp at h1; done) | (simp at h2; done) |
      (refine ⟨⟨?_, ?_⟩, ⟨?_, ?_⟩, ?_, ?_⟩ <;> linarith)
  · rintro ⟨⟨a, b⟩, ⟨c, d⟩, e, f⟩
    constructor <;> split_ifs <;> first | rfl | (exfalso; linarith)

theorem nodeLt_iff {tol : K} (ht : 0 ≤ tol) {p q : Pt K} : nodeLt tol p q = true ↔
    p 0 + tol < q 0 ∨ (Near tol (p 0) (q 0) ∧ (p 1 + tol < q 1 ∨ (Near tol (p 1) (q 1) ∧ p 2 + tol < q 2))) := by
  simp only [nodeLt, Near]
  split_ifs with a b c d e f
  · exact ⟨fun _ => Or.inl (by linarith), fun _ => rfl⟩
  · refine ⟨fun h => by simp at h, ?_⟩
    rintro (h | ⟨⟨h, -⟩, -⟩) <;> exfalso <;> linarith
  · exact ⟨fun _ => Or.inr ⟨⟨by linarith, by linarith⟩, Or.inl (by linarith)⟩, fun _ => rfl⟩
  · refine ⟨fun h => by simp at h, ?_⟩
    rintro (h | ⟨-, h | ⟨⟨h, -⟩, -⟩⟩) <;> exfalso <;> linarith
  · exact ⟨fun _ => Or.inr ⟨⟨by linarith, by linarith⟩, Or.inr ⟨⟨by linarith, by linarith⟩, by linarith⟩⟩, fun _ => rfl⟩
  · refine ⟨fun h => by simp at h, ?_⟩
    rintro (h | ⟨-, h | ⟨-, h⟩⟩) <;> exfalso <;> linarith
  · refine ⟨fun h => by simp at h, ?_⟩
    rintro (h | ⟨-, h | ⟨-, h⟩⟩) <;> exfalso <;> linarith

/-- If being within the tolerance is transitive for the coordinates of some points, the comparison orders
these points. -/
theorem nodeLt_weak {tol : K} (ht : 0 ≤ tol) {P : Pt K → Prop}
    (hc : ∀ p q r i, P p → P q → P r → Near tol (p i) (q i) → Near tol (q i) (r i) → Near tol (p i) (r i)) :
    WeakOn (nodeLt tol) P where
  irrefl p _ := by
    have : Eqv (nodeLt tol) p p := (nodeLt_eqv ht).2 fun i => ⟨by linarith, by linarith⟩
    exact this.1
  trans p q r hp hq hr h1 h2 := by
    rw [nodeLt_iff ht] at *
    -- mixed steps in one coordinate
    have key (i : Fin 3) : (p i + tol < q i ∨ Near tol (p i) (q i)) → (q i + tol < r i ∨ Near tol (q i) (r i)) →
        (p i + tol < r i) ∨ (Near tol (p i) (q i) ∧ Near tol (q i) (r i) ∧ Near tol (p i) (r i)) := by
      rintro (a | a) (b | b)
      · left; linarith
      · left
        by_contra hn
        push Not at hn
        have n : Near tol (p i) (r i) := ⟨by linarith [b.1], hn⟩
        have := hc p r q i hp hr hq n ⟨b.2, b.1⟩
        linarith [this.2]
      · left
        by_contra hn
        push Not at hn
        have n : Near tol (p i) (r i) := ⟨by linarith [a.1], hn⟩
        have := hc q p r i hq hp hr ⟨a.2, a.1⟩ n
        linarith [this.2]
      · right; exact ⟨a, b, hc p q r i hp hq hr a b⟩
    have w1 : p 0 + tol < q 0 ∨ Near tol (p 0) (q 0) := h1.imp_right And.left
    have w2 : q 0 + tol < r 0 ∨ Near tol (q 0) (r 0) := h2.imp_right And.left
    rcases key 0 w1 w2 with h | ⟨n1, n2, n⟩
    · exact Or.inl h
    · refine Or.inr ⟨n, ?_⟩
      have g1 := h1.resolve_left (by have := n1.2; intro; linarith)
      have g2 := h2.resolve_left (by have := n2.2; intro; linarith)
      have w1 : p 1 + tol < q 1 ∨ Near tol (p 1) (q 1) := g1.2.imp_right And.left
      have w2 : q 1 + tol < r 1 ∨ Near tol (q 1) (r 1) := g2.2.imp_right And.left
      rcases key 1 w1 w2 with h | ⟨m1, m2, m⟩
      · exact Or.inl h
      · refine Or.inr ⟨m, ?_⟩
        have k1 := g1.2.resolve_left (by have := m1.2; intro; linarith)
        have k2 := g2.2.resolve_left (by have := m2.2; intro; linarith)
        linarith [k1.2, k2.2]
  eqv p q r hp hq hr h1 h2 := by
    rw [nodeLt_eqv ht] at *
    exact fun i => hc p q r i hp hq hr (h1 i) (h2 i)

end Verif.Refine
