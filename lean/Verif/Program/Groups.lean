import Verif.Program.Scatter

/-!
# The comparison of the energy groups (C73)

Model of `Util::diffBetweenGroups` (src/Util.cc:52-79). Arithmetic is that of the real numbers; a quotient
by zero is `none`, "not a real number".
-/
set_option linter.unusedSectionVars false
set_option linter.unusedVariables false
namespace Verif.Program

open Verif.MeshFile Verif.TychoMesh Verif.Program.Spec
open Verif.Traverse (Psi)
open Verif.Problem (fdiv)

/-! ### Model -/

/-- The flux of a rank with its numbers of cells, angles, groups. -/
structure Flux where
  nCells : Nat
  nAngles : Nat
  nGroups : Nat
  psi : Psi ℝ

/-- The loop nest of src/Util.cc:60-62. -/
def Flux.loop (F : Flux) : List (Nat × Nat × Fin 4) :=
  (List.range F.nCells).flatMap fun c => (List.range F.nAngles).flatMap fun a => (List.finRange 4).map fun v => (c, a, v)

open Classical in
/-- `if (x > m) m = x` (src/Util.cc:66-67, 71-72). -/
noncomputable def raise (m x : ℝ) : ℝ := if x > m then x else m

/-- The loop body (src/Util.cc:64-73) on `(maxDiff, maxEntry)`. -/
noncomputable def Flux.body (F : Flux) (s : ℝ × ℝ) (i : Nat × Nat × Fin 4) : ℝ × ℝ :=
  let psi0 := F.psi 0 i.2.2 i.2.1 i.1
  let e := raise s.2 |psi0|
  let d := (List.range' 1 (F.nGroups - 1)).foldl (fun d g => raise d |psi0 - F.psi g i.2.2 i.2.1 i.1|) s.1
  (d, e)

/-- The value of a rank before `gmax` (src/Util.cc:57-76). -/
noncomputable def Flux.diff (F : Flux) : Option ℝ :=
  let s := F.loop.foldl F.body (0, 0)
  fdiv s.1 s.2

/-- `Comm::gmax` (src/Comm.cc, `MPI_MAX`) of numbers. -/
noncomputable def gmax : List ℝ → ℝ
  | [] => 0
  | x :: l => l.foldl max x

/-- `Util::diffBetweenGroups` (src/Util.cc:55-79) on the ranks with fluxes `ranks`. -/
noncomputable def diffBetweenGroups (ranks : List Flux) : Option ℝ := (ranks.mapM Flux.diff).map gmax

/-! ### Statements -/

/-- `(c, a, v)` is an entry of the flux of a rank. -/
def Flux.In (F : Flux) (c a : Nat) : Prop := c < F.nCells ∧ a < F.nAngles

/-- The flux is the same in all groups. -/
def Flux.Agree (F : Flux) : Prop := ∀ c a, F.In c a → ∀ v, ∀ g < F.nGroups, F.psi g v a c = F.psi 0 v a c

/-- `e` is the largest group 0 entry. -/
def Flux.Largest (F : Flux) (e : ℝ) : Prop :=
  (∀ c a v, F.In c a → |F.psi 0 v a c| ≤ e) ∧ ∃ c a v, F.In c a ∧ |F.psi 0 v a c| = e

/-- Some group 0 entry is not zero. -/
def Flux.Nonzero (F : Flux) : Prop := ∃ c a v, F.In c a ∧ F.psi 0 v a c ≠ 0

/-! ### Proofs -/

theorem raise_eq (m x : ℝ) : raise m x = max m x := by
  unfold raise
  split
  · rw [max_eq_right]; linarith
  · rw [max_eq_left]; linarith

theorem Flux.mem_loop {F : Flux} {c a : Nat} {v : Fin 4} : (c, a, v) ∈ F.loop ↔ F.In c a := by
  unfold Flux.loop Flux.In
  simp only [List.mem_flatMap, List.mem_range, List.mem_map, Prod.mk.injEq]
  constructor
  · rintro ⟨c', hc, a', ha, v', -, rfl, rfl, rfl⟩; exact ⟨hc, ha⟩
  · rintro ⟨hc, ha⟩; exact ⟨c, hc, a, ha, v, List.mem_finRange v, rfl, rfl, rfl⟩

theorem fold_max {α : Type} (f : α → ℝ) (l : List α) (d : ℝ) :
    d ≤ l.foldl (fun d g => raise d (f g)) d ∧ (∀ g ∈ l, f g ≤ l.foldl (fun d g => raise d (f g)) d) ∧
      (l.foldl (fun d g => raise d (f g)) d = d ∨ ∃ g ∈ l, l.foldl (fun d g => raise d (f g)) d = f g) := by
  induction l generalizing d with
  | nil => simp
  | cons x l ih =>
    simp only [List.foldl_cons]
    obtain ⟨h1, h2, h3⟩ := ih (raise d (f x))
    rw [raise_eq] at *
    refine ⟨(le_max_left _ _).trans h1, ?_, ?_⟩
    · intro g hg
      rcases List.mem_cons.1 hg with rfl | hg
      · exact (le_max_right _ _).trans h1
      · exact h2 g hg
    · rcases h3 with h | ⟨g, hg, h⟩
      · rcases max_choice d (f x) with hm | hm
        · left; rw [h, hm]
        · right; exact ⟨x, by simp, by rw [h, hm]⟩
      · right; exact ⟨g, by simp [hg], h⟩

/-- What the loop leaves in `maxDiff` and `maxEntry`. -/
theorem Flux.fold_spec (F : Flux) (l : List (Nat × Nat × Fin 4)) (s : ℝ × ℝ) :
    let t := l.foldl F.body s
    (s.1 ≤ t.1 ∧ (∀ i ∈ l, ∀ g < F.nGroups, 0 < g → |F.psi 0 i.2.2 i.2.1 i.1 - F.psi g i.2.2 i.2.1 i.1| ≤ t.1) ∧
      (t.1 = s.1 ∨ ∃ i ∈ l, ∃ g < F.nGroups, 0 < g ∧ t.1 = |F.psi 0 i.2.2 i.2.1 i.1 - F.psi g i.2.2 i.2.1 i.1|)) ∧
    s.2 ≤ t.2 ∧ (∀ i ∈ l, |F.psi 0 i.2.2 i.2.1 i.1| ≤ t.2) ∧
      (t.2 = s.2 ∨ ∃ i ∈ l, t.2 = |F.psi 0 i.2.2 i.2.1 i.1|) := by
  induction l generalizing s with
  | nil => simp
  | cons x l ih =>
    intro t
    obtain ⟨⟨h1, h2, h3⟩, k1, k2, k3⟩ := ih (F.body s x)
    obtain ⟨b1, b2, b3⟩ := fold_max (fun g => |F.psi 0 x.2.2 x.2.1 x.1 - F.psi g x.2.2 x.2.1 x.1|)
      (List.range' 1 (F.nGroups - 1)) s.1
    have e1 : (F.body s x).1 = (List.range' 1 (F.nGroups - 1)).foldl
      (fun d g => raise d |F.psi 0 x.2.2 x.2.1 x.1 - F.psi g x.2.2 x.2.1 x.1|) s.1 := rfl
    have e2 : (F.body s x).2 = max s.2 |F.psi 0 x.2.2 x.2.1 x.1| := raise_eq _ _
    have et : t = l.foldl F.body (F.body s x) := rfl
    rw [← et] at h1 h2 h3 k1 k2 k3
    rw [← e1] at b1 b2 b3
    have hmem : ∀ g, g ∈ List.range' 1 (F.nGroups - 1) ↔ 0 < g ∧ g < F.nGroups := by
      intro g
      rw [List.mem_range'_1]
      omega
    refine ⟨⟨b1.trans h1, ?_, ?_⟩, ?_, ?_, ?_⟩
    · intro i hi g hg h0
      rcases List.mem_cons.1 hi with rfl | hi
      · exact (b2 g ((hmem g).2 ⟨h0, hg⟩)).trans h1
      · exact h2 i hi g hg h0
    · rcases h3 with h | ⟨i, hi, g, hg, h0, h⟩
      · rcases b3 with b | ⟨g, hg, b⟩
        · left; rw [h, b]
        · right
          have := (hmem g).1 hg
          exact ⟨x, by simp, g, this.2, this.1, by rw [h, b]⟩
      · right; exact ⟨i, by simp [hi], g, hg, h0, h⟩
    · rw [e2] at k1; exact (le_max_left _ _).trans k1
    · intro i hi
      rcases List.mem_cons.1 hi with rfl | hi
      · rw [e2] at k1; exact (le_max_right _ _).trans k1
      · exact k2 i hi
    · rcases k3 with h | ⟨i, hi, h⟩
      · rw [e2] at h
        rcases max_choice s.2 |F.psi 0 x.2.2 x.2.1 x.1| with hm | hm
        · left; rw [h, hm]
        · right; exact ⟨x, by simp, by rw [h, hm]⟩
      · right; exact ⟨i, by simp [hi], h⟩

/-- The value of a rank: the largest difference from group 0 divided by the largest group 0 entry; it is a
number exactly if some group 0 entry is not zero. -/
theorem Flux.diff_spec (F : Flux) : (F.diff.isSome ↔ F.Nonzero) ∧ ∀ x, F.diff = some x → 0 ≤ x ∧ ∃ e, F.Largest e ∧ 0 < e ∧
    (∀ c a, F.In c a → ∀ v, ∀ g < F.nGroups, |F.psi 0 v a c - F.psi g v a c| ≤ x * e) ∧
    (x = 0 ∨ ∃ c a v g, F.In c a ∧ g < F.nGroups ∧ |F.psi 0 v a c - F.psi g v a c| = x * e) := by
  obtain ⟨⟨h1, h2, h3⟩, k1, k2, k3⟩ := F.fold_spec F.loop (0, 0)
  set t := F.loop.foldl F.body (0, 0) with ht
  have hd : F.diff = fdiv t.1 t.2 := rfl
  constructor
  · rw [hd]
    unfold fdiv
    constructor
    · intro h
      by_cases h0 : t.2 = 0
      · simp [h0] at h
      · rcases k3 with k | ⟨i, hi, k⟩
        · exact absurd k h0
        · refine ⟨i.1, i.2.1, i.2.2, Flux.mem_loop.1 hi, ?_⟩
          intro hz
          rw [hz, abs_zero] at k
          exact h0 k
    · rintro ⟨c, a, v, hin, hne⟩
      have := k2 (c, a, v) (Flux.mem_loop.2 hin)
      have hp : 0 < |F.psi 0 v a c| := abs_pos.2 hne
      rw [if_neg (by dsimp only at this; linarith)]
      rfl
  · intro x hx
    rw [hd] at hx
    unfold fdiv at hx
    by_cases h0 : t.2 = 0
    · simp [h0] at hx
    · rw [if_neg h0, Option.some.injEq] at hx
      have hpos : 0 < t.2 := lt_of_le_of_ne k1 (Ne.symm h0)
      have hxt : x * t.2 = t.1 := by rw [← hx]; field_simp
      have hx0 : 0 ≤ x := by rw [← hx]; exact div_nonneg h1 k1
      refine ⟨hx0, t.2, ⟨fun c a v hin => k2 (c, a, v) (Flux.mem_loop.2 hin), ?_⟩, hpos, ?_, ?_⟩
      · rcases k3 with k | ⟨i, hi, k⟩
        · exact absurd k h0
        · exact ⟨i.1, i.2.1, i.2.2, Flux.mem_loop.1 hi, k.symm⟩
      · intro c a hin v g hg
        rw [hxt]
        by_cases hg0 : g = 0
        · subst hg0; rw [sub_self, abs_zero]; exact h1
        · exact h2 (c, a, v) (Flux.mem_loop.2 hin) g hg (by omega)
      · rcases h3 with h | ⟨i, hi, g, hg, -, h⟩
        · left; rw [← hx, h]; simp
        · right
          exact ⟨i.1, i.2.1, i.2.2, g, Flux.mem_loop.1 hi, hg, by rw [hxt]; exact h.symm⟩

theorem gmax_spec {l : List ℝ} (hl : l ≠ []) : gmax l ∈ l ∧ ∀ x ∈ l, x ≤ gmax l := by
  cases l with
  | nil => exact absurd rfl hl
  | cons y l =>
    clear hl
    show l.foldl max y ∈ _ ∧ ∀ x ∈ _, x ≤ l.foldl max y
    induction l generalizing y with
    | nil => simp
    | cons z l ih =>
      rw [List.foldl_cons]
      obtain ⟨h1, h2⟩ := ih (max y z)
      constructor
      · rcases List.mem_cons.1 h1 with h | h
        · rcases max_choice y z with hm | hm
          · rw [h, hm]; simp
          · rw [h, hm]; simp
        · simp [h]
      · intro x hx
        have h3 := h2 (max y z) (by simp)
        rcases List.mem_cons.1 hx with rfl | hx
        · exact (le_max_left _ _).trans h3
        · rcases List.mem_cons.1 hx with rfl | hx
          · exact (le_max_right _ _).trans h3
          · exact h2 x (by simp [hx])

theorem mapM_diff {ranks : List Flux} : (ranks.mapM Flux.diff).isSome ↔ ∀ F ∈ ranks, F.Nonzero := by
  induction ranks with
  | nil => simp
  | cons F l ih =>
    rw [List.mapM_cons, List.forall_mem_cons, ← ih, ← F.diff_spec.1]
    cases F.diff <;> cases l.mapM Flux.diff <;> simp

theorem mapM_mem {ranks : List Flux} {l : List ℝ} (h : ranks.mapM Flux.diff = some l) :
    (∀ x ∈ l, ∃ F ∈ ranks, F.diff = some x) ∧ (∀ F ∈ ranks, ∃ x ∈ l, F.diff = some x) ∧ l.length = ranks.length := by
  induction ranks generalizing l with
  | nil => simp at h; subst h; simp
  | cons F r ih =>
    rw [List.mapM_cons] at h
    cases hF : F.diff with
    | none => simp [hF] at h
    | some x =>
      cases hr : r.mapM Flux.diff with
      | none => simp [hF, hr] at h
      | some l' =>
        simp [hF, hr] at h
        subst h
        obtain ⟨h1, h2, h3⟩ := ih hr
        refine ⟨?_, ?_, by simp [h3]⟩
        · intro y hy
          rcases List.mem_cons.1 hy with rfl | hy
          · exact ⟨F, by simp, hF⟩
          · obtain ⟨G, hG, e⟩ := h1 y hy
            exact ⟨G, by simp [hG], e⟩
        · intro G hG
          rcases List.mem_cons.1 hG with rfl | hG
          · exact ⟨x, by simp, hF⟩
          · obtain ⟨y, hy, e⟩ := h2 G hG
            exact ⟨y, by simp [hy], e⟩

/-- C73, as far as it holds: if on every rank some group 0 entry is not zero, a number is printed. It bounds
every difference from group 0, relative to the largest group 0 entry of the rank, and it is zero exactly if
the groups agree. -/
theorem groups_partial {ranks : List Flux} (h0 : ranks ≠ []) (hz : ∀ F ∈ ranks, F.Nonzero) :
    ∃ x, diffBetweenGroups ranks = some x ∧
      (∀ F ∈ ranks, ∀ e, F.Largest e → ∀ c a, F.In c a → ∀ v, ∀ g < F.nGroups, |F.psi 0 v a c - F.psi g v a c| ≤ x * e) ∧
      (x = 0 ↔ ∀ F ∈ ranks, F.Agree) := by
  obtain ⟨l, hl⟩ := Option.isSome_iff_exists.1 (mapM_diff.2 hz)
  obtain ⟨m1, m2, m3⟩ := mapM_mem hl
  have hne : l ≠ [] := by
    intro h
    rw [h] at m3
    exact h0 (List.length_eq_zero_iff.1 m3.symm)
  obtain ⟨g1, g2⟩ := gmax_spec hne
  have bound : ∀ F ∈ ranks, ∀ e, F.Largest e → ∀ c a, F.In c a → ∀ v, ∀ g < F.nGroups,
      |F.psi 0 v a c - F.psi g v a c| ≤ gmax l * e := by
    intro F hF e he c a hin v g hg
    obtain ⟨y, hy, hd⟩ := m2 F hF
    obtain ⟨y0, e', he', hp, hb, -⟩ := F.diff_spec.2 y hd
    have : e' = e := by
      obtain ⟨a1, c1, b1, v1, a2, a3⟩ := he
      obtain ⟨b1, c2, d2, v2, b2, b3⟩ := he'
      exact le_antisymm (by rw [← b3]; exact a1 _ _ _ b2) (by rw [← a3]; exact b1 _ _ _ a2)
    subst this
    exact (hb c a hin v g hg).trans (mul_le_mul_of_nonneg_right (g2 y hy) hp.le)
  refine ⟨gmax l, by unfold diffBetweenGroups; rw [hl]; rfl, bound, ?_, ?_⟩
  · intro hx F hF c a hin v g hg
    obtain ⟨y, hy, hd⟩ := m2 F hF
    obtain ⟨y0, e, he, hp, hb, -⟩ := F.diff_spec.2 y hd
    have := bound F hF e he c a hin v g hg
    rw [hx, zero_mul] at this
    have := abs_nonpos_iff.1 this
    linarith
  · intro hag
    obtain ⟨F, hF, hd⟩ := m1 _ g1
    obtain ⟨y0, e, he, hp, -, hb⟩ := F.diff_spec.2 _ hd
    rcases hb with hb | ⟨c, a, v, g, hin, hg, hb⟩
    · exact hb
    · rw [hag F hF c a hin v g hg, sub_self, abs_zero] at hb
      rcases mul_eq_zero.1 hb.symm with h | h
      · exact h
      · exact absurd h hp.ne'

/-- C73: a rank without cells, or with zero flux, spoils the check: the printed value is not a number although
the groups agree. -/
theorem groups_not_number : ¬ ∀ ranks : List Flux, ranks ≠ [] → (∀ F ∈ ranks, F.Agree) → (∃ F ∈ ranks, F.Nonzero) →
    diffBetweenGroups ranks = some 0 := by
  intro h
  have h1 := h [⟨1, 1, 2, fun _ _ _ _ => 1⟩, ⟨0, 1, 2, fun _ _ _ _ => 1⟩] (by simp) (by
    intro F hF
    simp only [List.mem_cons, List.not_mem_nil, or_false] at hF
    rcases hF with rfl | rfl <;> intro c a _ v g _ <;> rfl)
    ⟨⟨1, 1, 2, fun _ _ _ _ => 1⟩, by simp, 0, 0, 0, ⟨by decide, by decide⟩, by norm_num⟩
  have h2 : (List.mapM Flux.diff [⟨1, 1, 2, fun _ _ _ _ => 1⟩, ⟨0, 1, 2, fun _ _ _ _ => 1⟩]).isSome := by
    unfold diffBetweenGroups at h1
    cases he : List.mapM Flux.diff [⟨1, 1, 2, fun _ _ _ _ => (1 : ℝ)⟩, ⟨0, 1, 2, fun _ _ _ _ => 1⟩] with
    | none => rw [he] at h1; simp at h1
    | some l => rfl
  obtain ⟨c, a, v, hin, -⟩ := mapM_diff.1 h2 ⟨0, 1, 2, fun _ _ _ _ => 1⟩ (by simp)
  exact absurd hin.1 (by simp)

/-- The flux of two cells with one angle and two groups: group 0 is 1 and 100, group 1 is 2 and 100. -/
def twoCells (c0 n : Nat) : Flux := ⟨n, 1, 2, fun g _ _ c => if c + c0 = 0 then (if g = 0 then 1 else 2) else 100⟩

/-- C73: the printed value depends on the partition: the same two cells give 1/100 on one rank and 1 on
two. -/
theorem groups_partition : diffBetweenGroups [twoCells 0 2] = some (1 / 100) ∧
    diffBetweenGroups [twoCells 0 1, twoCells 1 1] = some 1 := by
  have e : ∀ (F : Flux) (x e : ℝ), F.Nonzero → F.Largest e → 0 < e →
      (∀ c a, F.In c a → ∀ v, ∀ g < F.nGroups, |F.psi 0 v a c - F.psi g v a c| ≤ x * e) →
      (∃ c a v g, F.In c a ∧ g < F.nGroups ∧ |F.psi 0 v a c - F.psi g v a c| = x * e) → F.diff = some x := by
    intro F x e hz he hp hb ⟨c, a, v, g, hin, hg, hx⟩
    obtain ⟨y, hy⟩ := Option.isSome_iff_exists.1 (F.diff_spec.1.2 hz)
    obtain ⟨y0, e', he', hp', hb', hx'⟩ := F.diff_spec.2 y hy
    have : e' = e := by
      obtain ⟨a1, c1, b1, v1, a2, a3⟩ := he
      obtain ⟨b1, c2, d2, v2, b2, b3⟩ := he'
      exact le_antisymm (by rw [← b3]; exact a1 _ _ _ b2) (by rw [← a3]; exact b1 _ _ _ a2)
    subst this
    rw [hy]
    congr 1
    refine le_antisymm ?_ ?_
    · rcases hx' with hx' | ⟨c2, a2, v2, g2, hin2, hg2, hx2⟩
      · rw [hx']
        have : 0 ≤ x * e' := by rw [← hx]; exact abs_nonneg _
        exact nonneg_of_mul_nonneg_left this hp
      · have := hb c2 a2 hin2 v2 g2 hg2
        rw [hx2] at this
        exact le_of_mul_le_mul_right this hp
    · have := hb' c a hin v g hg
      rw [hx] at this
      exact le_of_mul_le_mul_right this hp
  have d1 : (twoCells 0 2).diff = some (1 / 100) := by
    refine e _ _ 100 ⟨1, 0, 0, ⟨by decide, by decide⟩, by simp [twoCells]⟩
      ⟨?_, 1, 0, 0, ⟨by decide, by decide⟩, by simp [twoCells]⟩ (by norm_num) ?_
      ⟨0, 0, 0, 1, ⟨by decide, by decide⟩, by decide, by simp [twoCells]; norm_num⟩
    · intro c a v _
      simp only [twoCells]
      split <;> norm_num
    · intro c a _ v g hg
      simp only [twoCells]
      split
      · by_cases h : g = 0 <;> simp [h] <;> norm_num
      · norm_num
  have d2 : (twoCells 0 1).diff = some 1 := by
    refine e _ _ 1 ⟨0, 0, 0, ⟨by decide, by decide⟩, by simp [twoCells]⟩
      ⟨?_, 0, 0, 0, ⟨by decide, by decide⟩, by simp [twoCells]⟩ (by norm_num) ?_
      ⟨0, 0, 0, 1, ⟨by decide, by decide⟩, by decide, by simp [twoCells]; norm_num⟩
    · rintro c a v ⟨hc, -⟩
      have hc : c < 1 := hc
      obtain rfl : c = 0 := by omega
      simp [twoCells]
    · rintro c a ⟨hc, -⟩ v g hg
      have hc : c < 1 := hc
      obtain rfl : c = 0 := by omega
      simp only [twoCells, Nat.add_zero, if_true]
      split <;> norm_num
  have d3 : (twoCells 1 1).diff = some 0 := by
    refine e _ _ 100 ⟨0, 0, 0, ⟨by decide, by decide⟩, by simp [twoCells]⟩
      ⟨?_, 0, 0, 0, ⟨by decide, by decide⟩, by simp [twoCells]⟩ (by norm_num) ?_
      ⟨0, 0, 0, 1, ⟨by decide, by decide⟩, by decide, by simp [twoCells]⟩
    · intro c a v _; simp [twoCells]
    · intro c a _ v g hg; simp [twoCells]
  constructor
  · simp [diffBetweenGroups, d1, gmax]
  · simp [diffBetweenGroups, d2, d3, gmax]

/-- C73: the hypotheses of `groups_partial` hold for these two ranks. -/
example : ∃ x, diffBetweenGroups [twoCells 0 1, twoCells 1 1] = some x ∧ (x = 0 ↔ ∀ F ∈ [twoCells 0 1, twoCells 1 1], F.Agree) := by
  obtain ⟨x, h1, -, h2⟩ := groups_partial (ranks := [twoCells 0 1, twoCells 1 1]) (by simp) (by
    intro F hF
    simp only [List.mem_cons, List.not_mem_nil, or_false] at hF
    rcases hF with rfl | rfl <;> exact ⟨0, 0, 0, ⟨by decide, by decide⟩, by simp [twoCells]⟩)
  exact ⟨x, h1, h2⟩

end Verif.Program
