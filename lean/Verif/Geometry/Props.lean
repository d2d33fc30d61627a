import Verif.Geometry.Lemmas
import Verif.Transport.Props

/-!
# Geometry properties (C32, C33) and their use in the transport solve (C28, C30, C31)
-/
set_option linter.unusedSimpArgs false

namespace Verif.Geometry

open Spec

/-! ## C32 -/

/-- C32: the computed volume is positive exactly for non-degenerate cells. -/
theorem volume_pos_iff (p : Fin 4 → Pt) : 0 < tetVolume p ↔ NonCoplanar p := by
  rw [nonCoplanar_iff, tetVolume_eq]
  constructor
  · intro h hd; rw [hd] at h; simp at h
  · intro h; have := abs_pos.2 h; linarith

/-- C32: the volume does not depend on the numbering of the four vertices. -/
theorem volume_perm (p : Fin 4 → Pt) (σ : Equiv.Perm (Fin 4)) :
    tetVolume (fun i => p (σ i)) = tetVolume p := by
  rw [tetVolume_eq, tetVolume_eq, D_perm]

/-- C32: the area of a face does not depend on the order in which its vertices are listed. -/
theorem area_order (p : Fin 4 → Pt) (f : Fin 4) (t t' : Fin 3 → Fin 4) (ht : FaceTable f t)
    (ht' : FaceTable f t') : triangleArea (facePoints p t) = triangleArea (facePoints p t') := by
  rw [triangleArea_eq p f t ht, triangleArea_eq p f t' ht']

/-- C32: faces of non-degenerate cells have positive area. -/
theorem area_pos (p : Fin 4 → Pt) (f : Fin 4) (t : Fin 3 → Fin 4) (ht : FaceTable f t)
    (hp : NonCoplanar p) : 0 < triangleArea (facePoints p t) := by
  rw [triangleArea_eq p f t ht]
  have := Real.sqrt_pos.2 (AA_pos p f ((nonCoplanar_iff p).1 hp))
  linarith

/-- C32: the normal is defined, has unit length, is perpendicular to the face and points out of
the cell. -/
theorem normal_outward (p : Fin 4 → Pt) (f : Fin 4) (t : Fin 3 → Fin 4) (ht : FaceTable f t)
    (hp : NonCoplanar p) :
    ∃ n, getNormal (facePoints p t) p = some n ∧ OutwardUnitNormal p f n := by
  have hD := (nonCoplanar_iff p).1 hp
  have hpos : 0 < √(AA p f) := Real.sqrt_pos.2 (AA_pos p f hD)
  have hne := hpos.ne'
  have hsq : √(AA p f) ^ 2 = AA p f := Real.sq_sqrt (AA_nonneg p f)
  refine ⟨_, getNormal_eq p f t ht hD, ?_, ?_, ?_⟩
  · have h2 := sg_sq p
    have : sg p * A p f 0 / √(AA p f) * (sg p * A p f 0 / √(AA p f))
        + sg p * A p f 1 / √(AA p f) * (sg p * A p f 1 / √(AA p f))
        + sg p * A p f 2 / √(AA p f) * (sg p * A p f 2 / √(AA p f))
        = (sg p * sg p) * AA p f / √(AA p f) ^ 2 := by
      unfold AA at *
      field_simp
    rw [h2, hsq, one_mul, div_self (AA_pos p f hD).ne'] at this
    linear_combination this
  · intro i j hi hj
    have := A_perp p f i j hi hj
    field_simp
    linear_combination sg p * this
  · intro j hj
    have h1 := A_opp p f j hj
    have h2 := sg_D p hD
    have : sg p * A p f 0 / √(AA p f) * (p f 0 - p j 0) + sg p * A p f 1 / √(AA p f) * (p f 1 - p j 1)
        + sg p * A p f 2 / √(AA p f) * (p f 2 - p j 2) = -(sg p * D p) / √(AA p f) := by
      field_simp
      linear_combination sg p * h1
    rw [this]
    exact div_neg_of_neg_of_pos (by linarith) hpos

/-- There is only one outward unit normal, so `normal_outward` determines the computed vector. -/
theorem outward_unique (p : Fin 4 → Pt) (f : Fin 4) (hp : NonCoplanar p) (n m : Pt)
    (hn : OutwardUnitNormal p f n) (hm : OutwardUnitNormal p f m) : n = m := by
  obtain ⟨hn1, hn2, hn3⟩ := hn
  obtain ⟨hm1, hm2, hm3⟩ := hm
  obtain ⟨j, hj⟩ : ∃ j : Fin 4, j ≠ f := by
    fin_cases f
    exacts [⟨1, by decide⟩, ⟨0, by decide⟩, ⟨0, by decide⟩, ⟨0, by decide⟩]
  have hN := hn3 j hj
  have hM := hm3 j hj
  generalize hNd : n 0 * (p f 0 - p j 0) + n 1 * (p f 1 - p j 1) + n 2 * (p f 2 - p j 2) = N at hN
  generalize hMd : m 0 * (p f 0 - p j 0) + m 1 * (p f 1 - p j 1) + m 2 * (p f 2 - p j 2) = L at hM
  obtain ⟨h0, h1, h2⟩ := hp (n 0 * L - m 0 * N) (n 1 * L - m 1 * N) (n 2 * L - m 2 * N)
    ((n 0 * L - m 0 * N) * p j 0 + (n 1 * L - m 1 * N) * p j 1 + (n 2 * L - m 2 * N) * p j 2) (by
      intro i
      by_cases hi : i = f
      · subst hi; linear_combination L * hNd - N * hMd
      · have e1 := hn2 i j hi hj
        have e2 := hm2 i j hi hj
        linear_combination L * e1 - N * e2)
  have hsq : L ^ 2 = N ^ 2 := by
    have e0 : n 0 * L = m 0 * N := by linarith
    have e1 : n 1 * L = m 1 * N := by linarith
    have e2 : n 2 * L = m 2 * N := by linarith
    have : L ^ 2 * (n 0 ^ 2 + n 1 ^ 2 + n 2 ^ 2) = N ^ 2 * (m 0 ^ 2 + m 1 ^ 2 + m 2 ^ 2) := by
      linear_combination (n 0 * L + m 0 * N) * e0 + (n 1 * L + m 1 * N) * e1
        + (n 2 * L + m 2 * N) * e2
    rw [hn1, hm1] at this
    linarith
  have hLN : L = N := by
    rcases sq_eq_sq_iff_eq_or_eq_neg.1 hsq with h | h
    · exact h
    · linarith
  subst hLN
  have hL : L ≠ 0 := hN.ne
  funext d
  have hz : (n d - m d) * L = 0 := by
    fin_cases d
    · simpa [sub_mul] using h0
    · simpa [sub_mul] using h1
    · simpa [sub_mul] using h2
  have := (mul_eq_zero.1 hz).resolve_right hL
  linarith

/-- C32: volume = one third of face area times height over that face, for every face. -/
theorem volume_height (p : Fin 4 → Pt) (f : Fin 4) (t : Fin 3 → Fin 4) (ht : FaceTable f t)
    (hp : NonCoplanar p) (n : Pt) (hn : getNormal (facePoints p t) p = some n) (j : Fin 4)
    (hj : j ≠ f) :
    tetVolume p = 1 / 3 * triangleArea (facePoints p t)
      * (n 0 * (p j 0 - p f 0) + n 1 * (p j 1 - p f 1) + n 2 * (p j 2 - p f 2)) := by
  have hD := (nonCoplanar_iff p).1 hp
  have hpos : 0 < √(AA p f) := Real.sqrt_pos.2 (AA_pos p f hD)
  have hne := hpos.ne'
  rw [getNormal_eq p f t ht hD] at hn
  have hn := Option.some.inj hn
  rw [tetVolume_eq, triangleArea_eq p f t ht, ← hn]
  have h1 := A_opp p f j hj
  have hab : |D p| = sg p * D p := by
    unfold sg
    split <;> rename_i hh
    · rw [abs_of_pos hh, one_mul]
    · rw [abs_of_nonpos (not_lt.1 hh)]; ring
  rw [hab]
  field_simp
  linear_combination (6 * sg p) * h1

/-- The area-weighted normal of a face, in closed form (helper for closedness). -/
theorem area_normal (p : Fin 4 → Pt) (f : Fin 4) (t : Fin 3 → Fin 4) (ht : FaceTable f t)
    (hp : NonCoplanar p) (n : Pt) (hn : getNormal (facePoints p t) p = some n) (d : Fin 3) :
    triangleArea (facePoints p t) * n d = sg p * A p f d / 2 := by
  have hD := (nonCoplanar_iff p).1 hp
  have hne := (Real.sqrt_pos.2 (AA_pos p f hD)).ne'
  rw [getNormal_eq p f t ht hD] at hn
  rw [triangleArea_eq p f t ht, ← Option.some.inj hn]
  field_simp

/-- C32: the area-weighted outward normals of a cell add to zero. -/
theorem surface_closed (p : Fin 4 → Pt) (t : Fin 4 → Fin 3 → Fin 4) (ht : ∀ f, FaceTable f (t f))
    (hp : NonCoplanar p) (n : Fin 4 → Pt)
    (hn : ∀ f, getNormal (facePoints p (t f)) p = some (n f)) (d : Fin 3) :
    ∑ f, triangleArea (facePoints p (t f)) * n f d = 0 := by
  have h := A_sum p d
  simp only [fun f => area_normal p f (t f) (ht f) hp (n f) (hn f) d]
  simp [Fin.sum_univ_succ]
  linear_combination sg p / 2 * h

/-- Error branch: three collinear face points (zero cross product) make the code divide by zero. -/
theorem normal_degenerate (q : Fin 3 → Pt) (p : Fin 4 → Pt)
    (h : ∀ d, cross (sub (q 1) (q 0)) (sub (q 2) (q 0)) d = 0) : getNormal q p = none := by
  unfold getNormal
  simp [h]

/-! ## C33 -/

/-- C33: two non-degenerate cells on opposite sides of a shared face compute exactly opposite
normals and the same area, whatever the order of the face vertices in each cell. -/
theorem normals_opposite (p p' : Fin 4 → Pt) (f f' : Fin 4) (t t' : Fin 3 → Fin 4)
    (ht : FaceTable f t) (ht' : FaceTable f' t') (hp : NonCoplanar p) (hp' : NonCoplanar p')
    (hshare : ∀ i, i ≠ f' → ∃ j, j ≠ f ∧ p' i = p j)
    (hsep : Separates (facePoints p t) (p f) (p' f'))
    (n n' : Pt) (hn : getNormal (facePoints p t) p = some n)
    (hn' : getNormal (facePoints p' t') p' = some n') :
    ∀ d, n' d = - n d := by
  obtain ⟨m, hm, ho⟩ := normal_outward p f t ht hp
  rw [hn] at hm
  have hm := Option.some.inj hm
  subst hm
  obtain ⟨m', hm', ho'⟩ := normal_outward p' f' t' ht' hp'
  rw [hn'] at hm'
  have hm' := Option.some.inj hm'
  subst hm'
  obtain ⟨ho1, ho2, ho3⟩ := ho
  have key : OutwardUnitNormal p' f' (fun d => - n d) := by
    refine ⟨by linear_combination ho1, ?_, ?_⟩
    · intro i j hi hj
      obtain ⟨a, ha, hpa⟩ := hshare i hi
      obtain ⟨b, hb, hpb⟩ := hshare j hj
      rw [hpa, hpb]
      have := ho2 a b ha hb
      linear_combination -this
    · intro j hj
      obtain ⟨b, hb, hpb⟩ := hshare j hj
      rw [hpb]
      obtain ⟨m0, m1, m2, d, hpl, hlt, hgt⟩ := hsep
      have hplane : ∀ i, i ≠ f → m0 * p i 0 + m1 * p i 1 + m2 * p i 2 = d := by
        intro i hi
        obtain ⟨v, hv⟩ := face_mem f t ht i hi
        have := hpl v
        simpa [facePoints, hv] using this
      have hN := ho3 b hb
      have hb' := hplane b hb
      generalize hNd : n 0 * (p f 0 - p b 0) + n 1 * (p f 1 - p b 1) + n 2 * (p f 2 - p b 2) = N
        at hN
      generalize hLd : m0 * p f 0 + m1 * p f 1 + m2 * p f 2 = L at hlt
      obtain ⟨h0, h1, h2⟩ := hp (n 0 * (L - d) - m0 * N) (n 1 * (L - d) - m1 * N)
        (n 2 * (L - d) - m2 * N)
        ((n 0 * (L - d) - m0 * N) * p b 0 + (n 1 * (L - d) - m1 * N) * p b 1
          + (n 2 * (L - d) - m2 * N) * p b 2) (by
          intro i
          by_cases hi : i = f
          · subst hi; linear_combination (L - d) * hNd - N * hLd + N * hb'
          · have e1 := ho2 i b hi hb
            have e2 := hplane i hi
            linear_combination (L - d) * e1 - N * e2 + N * hb')
      generalize hGd : m0 * p' f' 0 + m1 * p' f' 1 + m2 * p' f' 2 = G at hgt
      have hprod : (n 0 * (p' f' 0 - p b 0) + n 1 * (p' f' 1 - p b 1) + n 2 * (p' f' 2 - p b 2))
          * (L - d) = N * (G - d) := by
        linear_combination (p' f' 0 - p b 0) * h0 + (p' f' 1 - p b 1) * h1
          + (p' f' 2 - p b 2) * h2 + N * hGd - N * hb'
      have hneg : N * (G - d) < 0 := mul_neg_of_neg_of_pos hN (by linarith)
      have hLd' : L - d < 0 := by linarith
      have hpos : 0 < n 0 * (p' f' 0 - p b 0) + n 1 * (p' f' 1 - p b 1)
          + n 2 * (p' f' 2 - p b 2) := by
        by_contra hc
        have := mul_nonneg_of_nonpos_of_nonpos (not_lt.1 hc) hLd'.le
        linarith
      linarith
  intro d
  have := outward_unique p' f' hp' n' _ ho' key
  rw [this]

/-- Cyclic or swapped listings of the same triangle have the same area, also across cells. -/
theorem area_shared (p p' : Fin 4 → Pt) (f f' : Fin 4) (t t' : Fin 3 → Fin 4)
    (ht : FaceTable f t) (ht' : FaceTable f' t')
    (hshare : ∀ i, i ≠ f' → ∃ j, j ≠ f ∧ p' i = p j) (hp' : NonCoplanar p') :
    triangleArea (facePoints p' t') = triangleArea (facePoints p t) := by
  -- the three points of the face of `p'` are those of `p` in some order `s`
  have hex : ∀ v, ∃ j, j ≠ f ∧ p' (t' v) = p j := fun v => hshare (t' v) (ht'.2 v)
  choose s hs1 hs2 using hex
  have hinj : FaceTable f s := by
    refine ⟨?_, hs1⟩
    intro v w hvw
    by_contra hne
    have hpt : p' (t' v) = p' (t' w) := by rw [hs2, hs2, hvw]
    have htne : t' v ≠ t' w := fun h => hne (ht'.1 _ _ h)
    have hD := (nonCoplanar_iff p').1 hp'
    have := A_opp p' (t' v) (t' w) htne.symm
    rw [hpt] at this
    apply hD; linarith
  have : facePoints p' t' = facePoints p s := by
    funext v; exact hs2 v
  rw [this]
  exact area_order p f s t hinj ht

/-- C33: so the two cells see `Ω·n` with opposite signs, and unless the direction is parallel to
the face exactly one of them classifies it as outgoing (`> 0`). -/
theorem omega_opposite (p p' : Fin 4 → Pt) (f f' : Fin 4) (t t' : Fin 3 → Fin 4)
    (ht : FaceTable f t) (ht' : FaceTable f' t') (hp : NonCoplanar p) (hp' : NonCoplanar p')
    (hshare : ∀ i, i ≠ f' → ∃ j, j ≠ f ∧ p' i = p j)
    (hsep : Separates (facePoints p t) (p f) (p' f')) (omega : Pt) :
    ∃ w, omegaDotN omega (facePoints p t) p = some w ∧
      omegaDotN omega (facePoints p' t') p' = some (-w) ∧
      (w ≠ 0 → (0 < w ↔ ¬ 0 < -w)) ∧ (w = 0 → ¬ 0 < w ∧ ¬ 0 < -w) := by
  obtain ⟨n, hn, _⟩ := normal_outward p f t ht hp
  obtain ⟨n', hn', _⟩ := normal_outward p' f' t' ht' hp'
  have h := normals_opposite p p' f f' t t' ht ht' hp hp' hshare hsep n n' hn hn'
  refine ⟨omega 0 * n 0 + omega 1 * n 1 + omega 2 * n 2, by simp [omegaDotN, hn], ?_, ?_, ?_⟩
  · simp only [omegaDotN, hn', Option.map_some, h]
    congr 1; ring
  · intro hw
    constructor
    · intro h1 h2; linarith
    · intro h1
      rcases lt_or_gt_of_ne hw with h2 | h2
      · exfalso; apply h1; linarith
      · exact h2
  · intro hw; rw [hw]; simp

/-! ### Concrete cells: the reference tetrahedron and its mirror image in the plane `x = 0` -/

noncomputable def refTet : Fin 4 → Pt := ![![0, 0, 0], ![1, 0, 0], ![0, 1, 0], ![0, 0, 1]]
noncomputable def mirTet : Fin 4 → Pt := ![![0, 0, 1], ![0, 0, 0], ![-1, 0, 0], ![0, 1, 0]]

theorem refTet_nc : NonCoplanar refTet := by
  rw [nonCoplanar_iff]; simp [D, dot, cross, sub, refTet]
theorem mirTet_nc : NonCoplanar mirTet := by
  rw [nonCoplanar_iff]; simp [D, dot, cross, sub, mirTet]

/-- Hypotheses of `normals_opposite`/`omega_opposite` hold for a concrete pair with different local
face numbers and differently ordered face tables. -/
example : ∃ w, omegaDotN ![1, 0, 0] (facePoints refTet ![0, 2, 3]) refTet = some w ∧
      omegaDotN ![1, 0, 0] (facePoints mirTet ![3, 0, 1]) mirTet = some (-w) ∧
      (w ≠ 0 → (0 < w ↔ ¬ 0 < -w)) ∧ (w = 0 → ¬ 0 < w ∧ ¬ 0 < -w) := by
  refine omega_opposite refTet mirTet 1 2 _ _ (by unfold FaceTable; decide)
    (by unfold FaceTable; decide) refTet_nc mirTet_nc ?_ ?_ _
  · intro i hi
    fin_cases i
    · exact ⟨3, by decide, by simp [refTet, mirTet]⟩
    · exact ⟨0, by decide, by simp [refTet, mirTet]⟩
    · exact absurd rfl hi
    · exact ⟨2, by decide, by simp [refTet, mirTet]⟩
  · refine ⟨-1, 0, 0, 0, ?_, ?_, ?_⟩
    · intro v; fin_cases v <;> simp [facePoints, refTet]
    · simp [refTet]
    · simp [mirTet]

example : tetVolume refTet = 1 / 6 := by
  rw [tetVolume_eq]; simp [D, dot, cross, sub, refTet]

/-! ## The transport solve on real cells (C28, C31 with their geometric hypotheses discharged) -/

open Verif.Transport

/-- The geometric tables of the mesh view are the ones the `TychoMesh` constructor computes
(src/TychoMesh.cc:199-223) from coordinates `X`, face tables `f2c` and directions `omega`. -/
structure GeomOf (m : MeshView ℝ) (X : Nat → Fin 4 → Pt) (f2c : Nat → Fin 4 → Fin 3 → Fin 4)
    (omega : Nat → Pt) (cell angle : Nat) : Prop where
  vol : m.cellVolume cell = tetVolume (X cell)
  area : ∀ f, m.faceArea cell f = triangleArea (facePoints (X cell) (f2c cell f))
  dotN : ∀ f, omegaDotN (omega angle) (facePoints (X cell) (f2c cell f)) (X cell)
    = some (m.omegaDotN angle cell f)
  table : ∀ f, FaceTable f (f2c cell f)
  nondeg : NonCoplanar (X cell)

/-- The signed face areas of a computed cell add to zero for every direction, and do not all vanish
for a nonzero direction. -/
theorem geom_closed (m : MeshView ℝ) (X : Nat → Fin 4 → Pt) (f2c : Nat → Fin 4 → Fin 3 → Fin 4)
    (omega : Nat → Pt) (cell angle : Nat) (h : GeomOf m X f2c omega cell angle) :
    (∑ f, m.faceArea cell f * m.omegaDotN angle cell f = 0) ∧
    (omega angle ≠ 0 → ∃ f, m.faceArea cell f * m.omegaDotN angle cell f ≠ 0) := by
  have hn : ∀ f, ∃ n, getNormal (facePoints (X cell) (f2c cell f)) (X cell) = some n :=
    fun f => ⟨_, (normal_outward _ f _ (h.table f) h.nondeg).choose_spec.1⟩
  choose n hn using hn
  have hdot : ∀ f, m.omegaDotN angle cell f
      = omega angle 0 * n f 0 + omega angle 1 * n f 1 + omega angle 2 * n f 2 := by
    intro f
    have := h.dotN f
    rw [omegaDotN, hn f, Option.map_some] at this
    exact (Option.some.inj this).symm
  have hform : ∀ f, m.faceArea cell f * m.omegaDotN angle cell f
      = sg (X cell) / 2 * (omega angle 0 * A (X cell) f 0 + omega angle 1 * A (X cell) f 1
          + omega angle 2 * A (X cell) f 2) := by
    intro f
    have e0 := area_normal _ f _ (h.table f) h.nondeg _ (hn f) 0
    have e1 := area_normal _ f _ (h.table f) h.nondeg _ (hn f) 1
    have e2 := area_normal _ f _ (h.table f) h.nondeg _ (hn f) 2
    rw [h.area f, hdot f]
    linear_combination omega angle 0 * e0 + omega angle 1 * e1 + omega angle 2 * e2
  constructor
  · simp only [hform]
    have h0 := A_sum (X cell) 0
    have h1 := A_sum (X cell) 1
    have h2 := A_sum (X cell) 2
    simp [Fin.sum_univ_succ]
    linear_combination sg (X cell) / 2 * (omega angle 0 * h0 + omega angle 1 * h1
      + omega angle 2 * h2)
  · intro hne
    by_contra hall
    push Not at hall
    apply hne
    have hD := (nonCoplanar_iff _).1 h.nondeg
    have hz : ∀ f, omega angle 0 * A (X cell) f 0 + omega angle 1 * A (X cell) f 1
          + omega angle 2 * A (X cell) f 2 = 0 := by
      intro f
      have := hall f
      rw [hform f] at this
      have hs : sg (X cell) / 2 ≠ 0 := by unfold sg; split <;> norm_num
      exact (mul_eq_zero.1 this).resolve_left hs
    -- the area vectors of faces 1, 2, 3 form a matrix with determinant `-D²`
    have z1 := hz 1
    have z2 := hz 2
    have z3 := hz 3
    generalize X cell = p at *
    have d0 : omega angle 0 * (D p) = 0 := by
      have a1 := A_opp p 1 0 (by decide)
      have a2 := A_opp p 2 0 (by decide)
      have a3 := A_opp p 3 0 (by decide)
      simp only [A, D, dot, cross, sub] at *
      simp [-mul_eq_zero] at *
      linear_combination (-(p 1 0 - p 0 0)) * z1 + (-(p 2 0 - p 0 0)) * z2 + (-(p 3 0 - p 0 0)) * z3
    have d1 : omega angle 1 * (D p) = 0 := by
      simp only [A, D, dot, cross, sub] at *
      simp [-mul_eq_zero] at *
      linear_combination (-(p 1 1 - p 0 1)) * z1 + (-(p 2 1 - p 0 1)) * z2 + (-(p 3 1 - p 0 1)) * z3
    have d2 : omega angle 2 * (D p) = 0 := by
      simp only [A, D, dot, cross, sub] at *
      simp [-mul_eq_zero] at *
      linear_combination (-(p 1 2 - p 0 2)) * z1 + (-(p 2 2 - p 0 2)) * z2 + (-(p 3 2 - p 0 2)) * z3
    funext d
    fin_cases d
    · exact (mul_eq_zero.1 d0).resolve_right hD
    · exact (mul_eq_zero.1 d1).resolve_right hD
    · exact (mul_eq_zero.1 d2).resolve_right hD

/-- C28 on real cells: for every non-degenerate tetrahedron, every direction, every nonnegative
cross-section (not both zero) and every solver option the transport solve of all groups
succeeds. -/
theorem tet_solve_defined (g : GaussElim) (nGroups : Nat) (m : MeshView ℝ) (X : Nat → Fin 4 → Pt)
    (f2c : Nat → Fin 4 → Fin 3 → Fin 4) (omega : Nat → Pt) (cell angle : Nat) (σ : ℝ)
    (h : GeomOf m X f2c omega cell angle) (hσ : 0 ≤ σ) (hne : 0 < σ ∨ omega angle ≠ 0)
    (lpb : Fin 3 → Fin 4 → Nat → ℝ) (q psi0 : Fin 4 → Nat → ℝ) :
    ∃ r, solve g nGroups m cell angle σ lpb q psi0 = some r := by
  obtain ⟨hc, hn⟩ := geom_closed m X f2c omega cell angle h
  refine solve_defined g nGroups m cell angle σ lpb q psi0 ?_ hσ hc ?_
  · rw [h.vol]; exact (volume_pos_iff _).2 h.nondeg
  · exact hne.imp id hn

/-- C31 on real cells. -/
theorem tet_constant_flux (g : GaussElim) (m : MeshView ℝ) (X : Nat → Fin 4 → Pt)
    (f2c : Nat → Fin 4 → Fin 3 → Fin 4) (omega : Nat → Pt) (cell angle : Nat) (σ k : ℝ)
    (h : GeomOf m X f2c omega cell angle) (hσ : 0 ≤ σ) (hne : 0 < σ ∨ omega angle ≠ 0)
    (lpb : Fin 3 → Fin 4 → ℝ) (q : Fin 4 → ℝ) (hq : ∀ v, q v = σ * k)
    (hin : ∀ f v, m.isIncoming angle cell f → v ≠ f → lpb (m.cellToFaceVrtx cell f v) f = k) :
    solveGroup g m cell angle σ lpb q = some (fun _ => k) := by
  obtain ⟨hc, hn⟩ := geom_closed m X f2c omega cell angle h
  obtain ⟨x, hx⟩ := solveGroup_defined g m cell angle σ lpb q
    (by rw [h.vol]; exact (volume_pos_iff _).2 h.nondeg) hσ hc (hne.imp id hn)
  rw [hx]
  congr 1
  funext v
  refine constant_flux g m cell angle σ k lpb q x hc hq ?_ hx v
  intro f v hneg hv
  apply hin f v ?_ hv
  unfold MeshView.isIncoming MeshView.isOutgoing
  intro hpos
  have : 0 ≤ m.faceArea cell f := by
    rw [h.area f]; unfold triangleArea; positivity
  exact absurd hneg (not_lt.2 (mul_nonneg this hpos.le))

/-- C30 on real cells: two cells on opposite sides of a shared face have opposite signed areas, the
hypothesis of `Verif.Transport.balance_mesh`. -/
theorem tet_areas_opposite (m : MeshView ℝ) (X : Nat → Fin 4 → Pt)
    (f2c : Nat → Fin 4 → Fin 3 → Fin 4) (omega : Nat → Pt) (c c' angle : Nat) (f f' : Fin 4)
    (h : GeomOf m X f2c omega c angle) (h' : GeomOf m X f2c omega c' angle)
    (hshare : ∀ i, i ≠ f' → ∃ j, j ≠ f ∧ X c' i = X c j)
    (hsep : Separates (facePoints (X c) (f2c c f)) (X c f) (X c' f')) :
    m.faceArea c' f' * m.omegaDotN angle c' f' = -(m.faceArea c f * m.omegaDotN angle c f) := by
  obtain ⟨w, h1, h2, _⟩ := omega_opposite (X c) (X c') f f' (f2c c f) (f2c c' f') (h.table f)
    (h'.table f') h.nondeg h'.nondeg hshare hsep (omega angle)
  rw [h.dotN f] at h1
  rw [h'.dotN f'] at h2
  rw [Option.some.inj h1, Option.some.inj h2, h.area, h'.area,
    area_shared (X c) (X c') f f' _ _ (h.table f) (h'.table f') hshare h'.nondeg]
  ring

/-- A mesh view satisfying `GeomOf` exists for every non-degenerate cell. -/
theorem geomOf_exists (X : Nat → Fin 4 → Pt) (f2c : Nat → Fin 4 → Fin 3 → Fin 4)
    (omega : Nat → Pt) (ht : ∀ c f, FaceTable f (f2c c f)) (hX : ∀ c, NonCoplanar (X c)) :
    ∃ m : MeshView ℝ, ∀ cell angle, GeomOf m X f2c omega cell angle := by
  have : ∀ (a c : Nat) (f : Fin 4), ∃ w,
      omegaDotN (omega a) (facePoints (X c) (f2c c f)) (X c) = some w := by
    intro a c f
    obtain ⟨n, hn, _⟩ := normal_outward _ f _ (ht c f) (hX c)
    exact ⟨_, by rw [omegaDotN, hn, Option.map_some]⟩
  choose w hw using this
  exact ⟨{ adjCell := fun _ _ => none, adjRank := fun _ _ => none, side := fun _ _ => 0,
           neighborVrtx := fun _ _ _ => 0, cellToFaceVrtx := fun _ _ _ => 0,
           omegaDotN := w, cellVolume := fun c => tetVolume (X c),
           faceArea := fun c f => triangleArea (facePoints (X c) (f2c c f)) },
    fun cell angle => ⟨rfl, fun _ => rfl, fun f => hw angle cell f, ht cell, hX cell⟩⟩

example : ∃ m : MeshView ℝ, ∀ cell angle, GeomOf m (fun _ => refTet)
    (fun _ => ![![1, 2, 3], ![0, 2, 3], ![0, 1, 3], ![2, 1, 0]]) (fun _ => ![1, 2, 3]) cell angle :=
  geomOf_exists _ _ _ (fun _ f => by unfold FaceTable; fin_cases f <;> decide)
    (fun _ => refTet_nc)

end Verif.Geometry
