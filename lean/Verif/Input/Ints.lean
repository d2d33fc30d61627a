import Verif.Input.Spec
import Verif.Input.Lemmas
import Mathlib.Tactic.Ring

/-!
# Integers of the input deck
-/
namespace Verif.Input
open Spec

theorem digit_iff (c : Char) : Digit c ↔ 48 ≤ c.toNat ∧ c.toNat ≤ 57 := by
  unfold Digit
  rw [Char.le_def, Char.le_def, UInt32.le_iff_toNat_le, UInt32.le_iff_toNat_le]
  exact Iff.rfl

theorem digits_append (ds rest : Str) (hd : ∀ c ∈ ds, Digit c)
    (hr : ∀ c, rest.head? = some c → ¬ Digit c) (acc : Nat) :
    digits (ds ++ rest) acc = (acc * 10 ^ ds.length + number ds, ds.length) := by
  induction ds generalizing acc with
  | nil =>
    cases rest with
    | nil => simp [digits, number]
    | cons c cs =>
      have := hr c rfl
      rw [digit_iff] at this
      simp [digits, this, number]
  | cons c cs ih =>
    have h1 := (digit_iff c).1 (hd c (by simp))
    simp only [List.cons_append, digits, h1.1, h1.2, and_self, if_true]
    rw [ih (fun c hc => hd c (by simp [hc]))]
    simp only [number, List.length_cons, Prod.mk.injEq, and_true]
    have : '0'.toNat = 48 := rfl
    rw [this]
    ring

/-- Every string is digits followed by something else. -/
theorem split_digits (s : Str) : ∃ ds rest, s = ds ++ rest ∧ (∀ c ∈ ds, Digit c) ∧
    ∀ c, rest.head? = some c → ¬ Digit c := by
  classical
  induction s with
  | nil => exact ⟨[], [], rfl, by simp, by simp⟩
  | cons c cs ih =>
    by_cases h : Digit c
    · obtain ⟨ds, rest, rfl, h1, h2⟩ := ih
      exact ⟨c :: ds, rest, rfl, by simpa [h] using h1, h2⟩
    · exact ⟨[], c :: cs, rfl, by simp, by simpa using h⟩

/-- The part of `stoi` after the sign. -/
def stoiBody (neg : Bool) (rest : Str) : Option Int :=
  let (v, n) := digits rest 0
  if n = 0 then none
  else
    let x : Int := if neg then - (v : Int) else v
    if -2147483648 ≤ x ∧ x ≤ 2147483647 then some x else none

theorem stoiBody_iff (neg : Bool) (s : Str) (x : Int) : stoiBody neg s = some x ↔
    ∃ ds rest, s = ds ++ rest ∧ ds ≠ [] ∧ (∀ c ∈ ds, Digit c) ∧
      (∀ c, rest.head? = some c → ¬ Digit c) ∧ x = (if neg then - (number ds : Int) else number ds) ∧
      -2 ^ 31 ≤ x ∧ x < 2 ^ 31 := by
  have key : ∀ ds rest : Str, (∀ c ∈ ds, Digit c) → (∀ c, rest.head? = some c → ¬ Digit c) →
      stoiBody neg (ds ++ rest) = if ds.length = 0 then none else
        if -2147483648 ≤ (if neg then - (number ds : Int) else number ds) ∧
          (if neg then - (number ds : Int) else (number ds : Int)) ≤ 2147483647 then
          some (if neg then - (number ds : Int) else number ds) else none := by
    intro ds rest h1 h2
    unfold stoiBody
    rw [digits_append ds rest h1 h2 0]
    simp only [Nat.zero_mul, Nat.zero_add]
  constructor
  · intro h
    obtain ⟨ds, rest, rfl, h1, h2⟩ := split_digits s
    rw [key ds rest h1 h2] at h
    generalize hy : (if neg = true then - (number ds : Int) else (number ds : Int)) = y at h
    split at h <;> [simp at h; skip]
    split at h <;> [skip; simp at h]
    rename_i h3 h4
    injection h with h
    subst hy
    refine ⟨ds, rest, rfl, fun he => h3 (by rw [he]; rfl), h1, h2, h.symm, ?_⟩
    rw [h] at h4
    omega
  · rintro ⟨ds, rest, rfl, h0, h1, h2, rfl, h3, h4⟩
    rw [key ds rest h1 h2, if_neg (by simpa using h0), if_pos (by omega)]

theorem not_digit_sign {c : Char} (h : c = '-' ∨ c = '+') : ¬ Digit c := by
  rw [digit_iff]
  rcases h with rfl | rfl <;> decide

/-- `std::stoi` finds exactly the integers of the specification. -/
theorem stoi_iff (v : Str) (x : Int) : stoi v = some x ↔ IntOf v x := by
  have hminus : ∀ t, stoi ('-' :: t) = stoiBody true t := fun _ => rfl
  have hplus : ∀ t, stoi ('+' :: t) = stoiBody false t := fun _ => rfl
  have hother : ∀ s : Str, s.head? ≠ some '-' → s.head? ≠ some '+' → stoi s = stoiBody false s := by
    intro s h1 h2
    unfold stoi
    split
    rename_i neg rest heq
    split at heq
    · simp at h1
    · simp at h2
    · injection heq with h3 h4
      subst h3; subst h4
      rfl
  have hds : ∀ ds rest : Str, ds ≠ [] → (∀ c ∈ ds, Digit c) → ∀ c, (c = '-' ∨ c = '+') →
      (ds ++ rest).head? ≠ some c := by
    intro ds rest h0 h1 c hc he
    cases ds with
    | nil => exact h0 rfl
    | cons d ds =>
      simp only [List.cons_append, List.head?_cons, Option.some.injEq] at he
      subst he
      exact not_digit_sign hc (h1 _ (by simp))
  constructor
  · intro h
    by_cases hm : v.head? = some '-'
    · obtain ⟨t, rfl⟩ : ∃ t, v = '-' :: t := by
        cases v with
        | nil => simp at hm
        | cons c cs => simp at hm; exact ⟨cs, by rw [hm]⟩
      rw [hminus, stoiBody_iff] at h
      obtain ⟨ds, rest, rfl, h0, h1, h2, h3, h4⟩ := h
      exact ⟨['-'], ds, rest, rfl, h0, h1, h2, .inr ⟨rfl, h3⟩, h4⟩
    · by_cases hp : v.head? = some '+'
      · obtain ⟨t, rfl⟩ : ∃ t, v = '+' :: t := by
          cases v with
          | nil => simp at hp
          | cons c cs => simp at hp; exact ⟨cs, by rw [hp]⟩
        rw [hplus, stoiBody_iff] at h
        obtain ⟨ds, rest, rfl, h0, h1, h2, h3, h4⟩ := h
        exact ⟨['+'], ds, rest, rfl, h0, h1, h2, .inl ⟨.inr rfl, h3⟩, h4⟩
      · rw [hother v hm hp, stoiBody_iff] at h
        obtain ⟨ds, rest, rfl, h0, h1, h2, h3, h4⟩ := h
        exact ⟨[], ds, rest, rfl, h0, h1, h2, .inl ⟨.inl rfl, h3⟩, h4⟩
  · rintro ⟨sign, ds, rest, rfl, h0, h1, h2, ⟨rfl | rfl, h3⟩ | ⟨rfl, h3⟩, h4⟩
    · rw [List.nil_append, hother _ (hds ds rest h0 h1 _ (.inl rfl)) (hds ds rest h0 h1 _ (.inr rfl)),
        stoiBody_iff]
      exact ⟨ds, rest, rfl, h0, h1, h2, h3, h4⟩
    · show stoi ('+' :: (ds ++ rest)) = _
      rw [hplus, stoiBody_iff]
      exact ⟨ds, rest, rfl, h0, h1, h2, h3, h4⟩
    · show stoi ('-' :: (ds ++ rest)) = _
      rw [hminus, stoiBody_iff]
      exact ⟨ds, rest, rfl, h0, h1, h2, h3, h4⟩

end Verif.Input
