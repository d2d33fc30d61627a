import Verif.Timing.Props
import Mathlib.Data.Fin.VecNotation

/-!
# Examples for C88
-/
namespace Verif.Timing

/-- One rank needs ten seconds for the set-up. -/
noncomputable def slow (i : Nat) : ℝ := if i ≤ 1 then 0 else 10

/-- Another one waits for it in the communication of its first pass. -/
noncomputable def waiting (i : Nat) : ℝ := if i ≤ 3 then 0 else 10

theorem slow_mono : Monotone slow := by
  intro i j h
  unfold slow
  split <;> split <;> first | (exfalso; omega) | norm_num

theorem waiting_mono : Monotone waiting := by
  intro i j h
  unfold waiting
  split <;> split <;> first | (exfalso; omega) | norm_num

theorem slow_times : traverseTimes slow true false 1 = some ⟨0, 0, 0, 10, 10⟩ := by
  simp [traverseTimes, traverse, pass, run, Timer.start, Timer.stop, Timer.wallClock, Timer.sumWallClock, Timer.new, slow]

theorem waiting_times : traverseTimes waiting true false 1 = some ⟨10, 0, 0, 0, 10⟩ := by
  simp [traverseTimes, traverse, pass, run, Timer.start, Timer.stop, Timer.wallClock, Timer.sumWallClock, Timer.new, waiting]

/-- C88: the printed parts of a traversal need not add up to the total, since each number is the largest of all
ranks: two ranks, ten seconds of set-up, ten seconds of communication, ten seconds in total. -/
theorem parts_exceed_total : ∃ (clock : Fin 2 → Nat → ℝ) (t : Fin 2 → Times), (∀ r, Monotone (clock r)) ∧
    (∀ r, traverseTimes (clock r) true false 1 = some (t r)) ∧
    gmax (fun r => (t r).total) < gmax (fun r => (t r).setup) + gmax (fun r => (t r).comm) := by
  refine ⟨![slow, waiting], ![⟨0, 0, 0, 10, 10⟩, ⟨10, 0, 0, 0, 10⟩], ?_, ?_, ?_⟩
  · intro r
    match r with
    | 0 => exact slow_mono
    | 1 => exact waiting_mono
  · intro r
    match r with
    | 0 => exact slow_times
    | 1 => exact waiting_times
  · have h1 : gmax (fun r : Fin 2 => ((![⟨0, 0, 0, 10, 10⟩, ⟨10, 0, 0, 0, 10⟩] : Fin 2 → Times) r).total) ≤ 10 := by
      refine gmax_le fun r => ?_
      match r with
      | 0 => exact le_rfl
      | 1 => exact le_rfl
    have h2 : (10 : ℝ) ≤ gmax (fun r : Fin 2 => ((![⟨0, 0, 0, 10, 10⟩, ⟨10, 0, 0, 0, 10⟩] : Fin 2 → Times) r).setup) :=
      le_gmax (fun r : Fin 2 => ((![⟨0, 0, 0, 10, 10⟩, ⟨10, 0, 0, 0, 10⟩] : Fin 2 → Times) r).setup) 0
    have h3 : (10 : ℝ) ≤ gmax (fun r : Fin 2 => ((![⟨0, 0, 0, 10, 10⟩, ⟨10, 0, 0, 0, 10⟩] : Fin 2 → Times) r).comm) :=
      le_gmax (fun r : Fin 2 => ((![⟨0, 0, 0, 10, 10⟩, ⟨10, 0, 0, 0, 10⟩] : Fin 2 → Times) r).comm) 1
    exact lt_of_le_of_lt h1 (lt_of_lt_of_le (by norm_num : (10 : ℝ) < 10 + 10) (add_le_add h2 h3))

/-- A traversal with two passes and separate messages: the clock advances by one second at each reading. -/
example : traverseTimes (fun i => i) true true 2 = some ⟨10, 2, 2, 1, 15⟩ := by
  simp [traverseTimes, traverse, pass, run, Timer.start, Timer.stop, Timer.wallClock, Timer.sumWallClock, Timer.new]
  norm_num

/-- Two ranks, the second a second late and with a clock that is seven seconds ahead, two iterations. -/
example : Timeline 2 (fun (r : Fin 2) i => 7 * (r : ℝ) + ((i : ℝ) * 3 + (r : ℝ))) (fun r => 7 * (r : ℝ)) (fun r i => (i : ℝ) * 3 + (r : ℝ)) where
  clock _ _ := rfl
  order r i j h := by
    have : (i : ℝ) ≤ j := by exact_mod_cast h
    show (i : ℝ) * 3 + r ≤ j * 3 + r
    linarith
  sync j _ r r' := by
    have h1 : ((r : ℕ) : ℝ) ≤ 1 := by exact_mod_cast (show (r : ℕ) ≤ 1 by omega)
    have h2 : (0 : ℝ) ≤ ((r' : ℕ) : ℝ) := Nat.cast_nonneg _
    push_cast
    linarith

/-- Two threads that compute for two steps within a sweep of ten seconds. -/
example : ∃ t : Fin 1 → (Fin 2 → ℝ) × ℝ, (∀ r, sweepTimes (fun i => 10 * (i : ℝ)) (fun j i => (j : ℝ) + i) 2 = some (t r)) ∧ 0 ≤ (printed t).2.1 := by
  obtain ⟨t, h1, -, h2, -⟩ := sweep_printed (n := 0) (g := 1) (outer := fun _ i => 10 * (i : ℝ)) (inner := fun _ j i => (j : ℝ) + i) (k := fun _ => 2)
    (fun _ j i i' h => by
      have : (i : ℝ) ≤ i' := by exact_mod_cast h
      show ((j : ℕ) : ℝ) + i ≤ j + i'
      linarith) (fun _ => by norm_num) (fun _ j => by
      have h1 : ((j : ℕ) : ℝ) ≤ 1 := by exact_mod_cast (show (j : ℕ) ≤ 1 by omega)
      have h2 : (0 : ℝ) ≤ ((j : ℕ) : ℝ) := Nat.cast_nonneg _
      constructor
      · simp
      · push_cast
        linarith)
  exact ⟨t, h1, h2⟩

end Verif.Timing
