import Verif.Rounding.Nearly
import Verif.Rounding.Bridge
import Verif.Rounding.Accuracy
import Verif.Program.Scatter

/-!
# The rounded geometry of a cell against the exact one (for C97)
-/
namespace Verif.Rounding.Spec

open Verif.Geometry Verif.MeshFile Verif.TychoMesh

/-- No cancellation beyond a factor `κ` in the cross products of the faces and the determinants of the
cells. -/
structure Stout (κ : ℝ) (val : Nat → ℝ) (m : SerialMesh) : Prop where
  one : 1 ≤ κ
  faces : ∀ (c : Nat) (f : Fin 4) (g : Nat) (e : SFace), FaceOf m c f g → m.faces[g]? = some e →
    size (rough (vec (point val m (e.nodes 0)) (point val m (e.nodes 1))) (vec (point val m (e.nodes 0)) (point val m (e.nodes 2)))) ≤
      κ * size (cross (vec (point val m (e.nodes 0)) (point val m (e.nodes 1))) (vec (point val m (e.nodes 0)) (point val m (e.nodes 2))))
  cells : ∀ (c : Nat) (d : SCell), m.cells[c]? = some d →
    perm (vec (point val m (d.nodes 0)) (point val m (d.nodes 3))) (vec (point val m (d.nodes 0)) (point val m (d.nodes 1)))
        (vec (point val m (d.nodes 0)) (point val m (d.nodes 2))) ≤
      κ * |det (vec (point val m (d.nodes 0)) (point val m (d.nodes 3))) (vec (point val m (d.nodes 0)) (point val m (d.nodes 1)))
        (vec (point val m (d.nodes 0)) (point val m (d.nodes 2)))|

end Verif.Rounding.Spec

namespace Verif.Rounding

open Verif.MeshFile Verif.TychoMesh Verif.Geometry Verif.Geometry.Spec Verif.Program Verif.Program.Spec Verif.Floating.Spec
open Verif.Rounding.Spec hiding Acyclic
open Verif.Source Verif.Transport

variable {u : ℝ} {rnd : ℝ → ℝ} {val : Nat → ℝ} {m : SerialMesh} {deck : Deck} {p : Problem ℝ} {sS : Nat → ℝ} {κ : ℝ}

theorem pow9 (hu : 0 ≤ u) (h : u ≤ 1 / 1000) : (1 + u) ^ 9 - 1 ≤ 9.1 * u := by
  have := pow_bound hu 9 (by push_cast; linarith)
  push_cast at this
  nlinarith

theorem pow10 (hu : 0 ≤ u) (h : u ≤ 1 / 1000) : (1 + u) ^ 10 - 1 ≤ 10.2 * u := by
  have := pow_bound hu 10 (by push_cast; linarith)
  push_cast at this
  nlinarith

theorem signed_near (R : Rounds u rnd) {A A' w w' t : ℝ} (hA : 0 ≤ A) (ht0 : 0 ≤ t) (ht : t ≤ 1 / 100) (hu : 9 * u ≤ t)
    (h1 : |A' - A| ≤ t * A) (h2 : |w' - w| ≤ 2.05 * t) (hw : |w| ≤ 1.01) : |rnd (A' * w') - A * w| ≤ 3.4 * t * A := by
  have hu0 := R.small.1
  have hw' : |w'| ≤ 1.031 := by
    have : |w'| ≤ |w' - w| + |w| := by have := abs_add_le (w' - w) w; rwa [sub_add_cancel] at this
    linarith
  have hA' : |A'| ≤ 1.01 * A := by
    have : |A'| ≤ |A' - A| + |A| := by have := abs_add_le (A' - A) A; rwa [sub_add_cancel] at this
    rw [abs_of_nonneg hA] at this
    nlinarith
  have hp : |A' * w'| ≤ 1.05 * A := by
    rw [abs_mul]
    calc |A'| * |w'| ≤ (1.01 * A) * 1.031 := mul_le_mul hA' hw' (abs_nonneg _) (by linarith)
      _ ≤ 1.05 * A := by linarith
  have hr : |rnd (A' * w') - A' * w'| ≤ 0.12 * (t * A) := by
    refine (R.near _).trans ?_
    calc u * |A' * w'| ≤ u * (1.05 * A) := mul_le_mul_of_nonneg_left hp hu0
      _ ≤ _ := by nlinarith
  have hd : |A' * w' - A * w| ≤ 3.09 * (t * A) := by
    have e : A' * w' - A * w = (A' - A) * w' + A * (w' - w) := by ring
    rw [e]
    refine (abs_add_le _ _).trans ?_
    rw [abs_mul, abs_mul, abs_of_nonneg hA]
    have a1 : |A' - A| * |w'| ≤ t * A * 1.031 := mul_le_mul h1 hw' (abs_nonneg _) (mul_nonneg ht0 hA)
    have a2 : A * |w' - w| ≤ A * (2.05 * t) := mul_le_mul_of_nonneg_left h2 hA
    linarith [mul_nonneg ht0 hA]
  have e : rnd (A' * w') - A * w = (rnd (A' * w') - A' * w') + (A' * w' - A * w) := by ring
  rw [e]
  refine (abs_add_le _ _).trans ?_
  have := mul_nonneg ht0 hA
  linarith

/-- The problem of a mesh that fits is physical if no material is void. -/
theorem geometry_physical (H : Tets m) (F : Fits val m) (Ds : Describes val deck m p sS) (hσ : ∀ c < m.numCells, 0 < p.sigmaT c) :
    p.Physical m := by
  have dirOf : ∀ a < p.nAngles, ∃ d, deck.dirs[a]? = some d ∧ deck.omega[a]? = some ![d.xi, d.eta, d.mu] := by
    intro a ha
    rw [Ds.angles] at ha
    exact ⟨deck.dirs[a], List.getElem?_eq_getElem ha, by rw [omega_get, List.getElem?_eq_getElem ha]; rfl⟩
  have geo : ∀ c < m.numCells, ∀ om : Pt,
      ∑ f, triangleArea (facePoints (pts val m c) f.succAbove) * dotN val m om c f = 0 := by
    intro c hc om
    have nd := F.nondeg c hc
    obtain ⟨M, hM⟩ := geomOf_exists (fun _ => pts val m c) (fun _ f => f.succAbove) (fun _ => om) (fun _ f => std_table f)
      (fun _ => nd)
    have G := hM 0 0
    have e : ∀ f, M.omegaDotN 0 0 f = dotN val m om c f := by
      intro f
      have := G.dotN f
      rw [dotN_eq nd (std_table f), Option.some.injEq] at this
      exact this.symm
    have := geom_closed M _ _ _ 0 0 G
    simp only [G.area, e] at this
    exact this.1
  refine ⟨?_, ?_, fun c hc => (hσ c hc).le, ?_, fun c hc _ _ => .inl (hσ c hc), ?_⟩
  · intro c hc
    rw [(describes_values F Ds hc).1]
    exact (volume_pos_iff _).2 (F.nondeg c hc)
  · intro c hc f
    rw [(describes_values F Ds hc).2.1]
    exact (area_pos _ f _ (std_table f) (F.nondeg c hc)).le
  · intro c hc a ha
    obtain ⟨d, -, h2⟩ := dirOf a ha
    obtain ⟨-, e1, e2⟩ := describes_values F Ds hc
    simp only [e1, e2 a _ h2]
    exact geo c hc _
  · intro c f c' f' hx a ha
    obtain ⟨d, -, h2⟩ := dirOf a ha
    obtain ⟨hc, hc'⟩ := across_cells H hx
    rw [(describes_values F Ds hc).2.2 a _ h2, (describes_values F Ds hc').2.2 a _ h2]
    obtain ⟨w, h3, h4, -⟩ := omega_opposite (pts val m c) (pts val m c') f f' _ _ (std_table f) (std_table f') (F.nondeg c hc)
      (F.nondeg c' hc') (across_share H hx) (F.sides c f c' f' hx) ![d.xi, d.eta, d.mu]
    rw [dotN_eq (F.nondeg c hc) (std_table f), Option.some.injEq] at h3
    rw [dotN_eq (F.nondeg c' hc') (std_table f'), Option.some.injEq] at h4
    rw [h4, h3]

theorem geometry_matched (H : Tets m) (F : Fits val m) (Ds : Describes val deck m p sS) : p.Matched m := by
  intro c f c' f' hx
  obtain ⟨hc, hc'⟩ := across_cells H hx
  rw [(describes_values F Ds hc).2.1, (describes_values F Ds hc').2.1]
  exact area_shared _ _ f f' _ _ (std_table f) (std_table f') (across_share H hx) (F.nondeg c' hc')

theorem triangleArea_size (q : Fin 3 → Pt) : triangleArea q = size (cross (vec (q 0) (q 1)) (vec (q 0) (q 2))) / 2 := by
  unfold triangleArea size
  have e : ∀ x y : Pt, sub x y = vec y x := by
    intro x y
    funext k
    unfold sub vec
    match k with
    | 0 => rfl
    | 1 => rfl
    | 2 => rfl
  simp only [e]
  rw [show (0.5 : ℝ) = 1 / 2 by norm_num]
  simp only [← pow_two]
  ring

/-- The area of a face from its nodes in the order of the file. -/
theorem area_eq (H : Tets m) (F : Fits val m) (Ds : Describes val deck m p sS) {c g : Nat} {f : Fin 4} {d : SCell} {e : SFace}
    (hg : FaceOf m c f g) (hd : m.cells[c]? = some d) (he : m.faces[g]? = some e) :
    p.area c f = size (cross (vec (point val m (e.nodes 0)) (point val m (e.nodes 1)))
      (vec (point val m (e.nodes 0)) (point val m (e.nodes 2)))) / 2 := by
  have hc := lt_of_get H hd
  choose t ht1 ht2 using node_vertex H hg hd he
  have ht : FaceTable f t := by
    refine ⟨fun v w h => ?_, ht1⟩
    apply Verif.Floating.faceNodes_inj H hg he
    rw [ht2, ht2, h]
  have hpt : ∀ v, point val m (e.nodes v) = facePoints (pts val m c) t v := fun v => by
    show _ = pts val m c (t v)
    rw [pts_point hd, ht2]
  rw [(describes_values F Ds hc).2.1 f, area_shared (pts val m c) (pts val m c) f f t f.succAbove ht (std_table f)
    (fun i hi => ⟨i, hi, rfl⟩) (F.nondeg c hc), triangleArea_size, hpt 0, hpt 1, hpt 2]

/-- The data of one face. -/
theorem face_near (R : Rounds u rnd) (hu : u ≤ 1 / 1000) (H : Tets m) (F : Fits val m) (Ds : Describes val deck m p sS)
    (hw : WellShaped u val m) (S : Stout κ val m) (hκ : 31 * u * κ ≤ 1 / 100) {a : Nat} (ha : a < deck.dirs.length)
    (hom : size (deckDir deck a) ≤ 1.01) {c : Nat} {P : Fin 4 → Pt} {f : Fin 4} {q : Fin 3 → Pt} {x : ℝ} (hP : CellPoints val m c P)
    (hq : FacePoints val m c f q) (hx : romega rnd (deckDir deck a) q P = some x) :
    |rnd (rarea rnd q * x) - p.area c f * p.omegaDotN a c f| ≤ 31 * u * κ * p.area c f ∧
    |p.area c f * p.omegaDotN a c f| ≤ 1.01 * p.area c f ∧ 0 < rarea rnd q := by
  have hu0 := R.small.1
  have hκ1 := S.one
  obtain ⟨d, hd, hPd⟩ := hP
  obtain ⟨g, e, hg, he, hqe⟩ := hq
  have hc := lt_of_get H hd
  have nd := F.nondeg c hc
  -- the numbering of the face
  choose t ht1 ht2 using node_vertex H hg hd he
  have ht : FaceTable f t := by
    refine ⟨fun v w h => ?_, ht1⟩
    apply Verif.Floating.faceNodes_inj H hg he
    rw [ht2, ht2, h]
  obtain rfl : P = pts val m c := by
    funext v
    rw [position_point (hPd v), pts_point hd]
  obtain rfl : q = facePoints (pts val m c) t := by
    funext v
    show q v = pts val m c (t v)
    rw [position_point (hqe v), pts_point hd, ht2]
  have hpt : ∀ v, pts val m c (t v) = point val m (e.nodes v) := fun v => by rw [pts_point hd, ht2]
  obtain ⟨n, -, hn⟩ := normal_outward (pts val m c) f t ht nd
  have hrough := S.faces c f g e hg he
  have hclear := hw c f g d e hg hd he
  rw [← hpt 0, ← hpt 1, ← hpt 2] at hrough hclear
  rw [← pts_point hd] at hclear
  -- the area
  have hA : p.area c f = size (cross (vec (pts val m c (t 0)) (pts val m c (t 1))) (vec (pts val m c (t 0)) (pts val m c (t 2)))) / 2 := by
    rw [area_eq H F Ds hg hd he, hpt 0, hpt 1, hpt 2]
  have hApos : 0 < p.area c f := by
    rw [(describes_values F Ds hc).2.1 f]
    exact area_pos _ f _ (std_table f) nd
  have hku : u * κ ≤ 1 / 3100 := by linarith
  have hku0 : 0 ≤ u * κ := mul_nonneg hu0 (by linarith)
  have har := rounded_area R (facePoints (pts val m c) t)
  have har' : |rarea rnd (facePoints (pts val m c) t) - p.area c f| ≤ 9.1 * (u * κ) * p.area c f := by
    rw [hA]
    refine har.trans ?_
    have h9 : 0 ≤ (1 + u) ^ 9 - 1 := by have := one_le_pow₀ (n := 9) (show 1 ≤ 1 + u by linarith); linarith
    calc _ ≤ ((1 + u) ^ 9 - 1) * (κ * p.area c f) := by
          refine mul_le_mul_of_nonneg_left ?_ h9
          rw [hA]
          show size (rough (vec (pts val m c (t 0)) (pts val m c (t 1))) (vec (pts val m c (t 0)) (pts val m c (t 2)))) / 2 ≤ _
          linarith
      _ ≤ (9.1 * u) * (κ * p.area c f) := mul_le_mul_of_nonneg_right (pow9 hu0 hu) (mul_nonneg (by linarith) hApos.le)
      _ = _ := by rw [hA]; ring
  -- the product
  have hγ : ((1 + u) ^ 8 - 1) * κ ≤ 8.1 * (u * κ) := by
    calc _ ≤ 8.1 * u * κ := mul_le_mul_of_nonneg_right (pow8 hu0 hu) (by linarith)
      _ = _ := by ring
  have hγ0 : 0 ≤ ((1 + u) ^ 8 - 1) * κ := mul_nonneg
    (by have := one_le_pow₀ (n := 8) (show 1 ≤ 1 + u by linarith); linarith) (by linarith)
  obtain ⟨x', hx', hacc⟩ := rounded_accuracy R ht hclear (deckDir deck a) hrough (by linarith) hn
  rw [hx, Option.some.injEq] at hx'
  subst hx'
  have hdir : deck.dirs[a]? = some deck.dirs[a] := List.getElem?_eq_getElem ha
  have hom' : deckDir deck a = ![deck.dirs[a].xi, deck.dirs[a].eta, deck.dirs[a].mu] := by
    unfold deckDir
    rw [omega_get, hdir]
    rfl
  have hΩ : p.omegaDotN a c f = deckDir deck a 0 * n 0 + deckDir deck a 1 * n 1 + deckDir deck a 2 * n 2 := by
    rw [Ds.omega c hc f n hn a _ hdir, hom']
    rfl
  have hsn : size n = 1 := by unfold size; rw [hn.1, Real.sqrt_one]
  have hΩ1 : |p.omegaDotN a c f| ≤ 1.01 := by
    rw [hΩ, abs_le]
    have k1 := cauchy (deckDir deck a) n
    have k2 := cauchy (deckDir deck a) (fun i => -n i)
    have k3 : size (fun i => -n i) = 1 := by rw [← hsn]; unfold size; simp only [neg_sq]
    rw [hsn] at k1
    rw [k3] at k2
    constructor <;> linarith
  rw [← hΩ] at hacc
  have hacc' : |x - p.omegaDotN a c f| ≤ 2.05 * (9.1 * (u * κ)) := by
    refine hacc.trans ?_
    set γ := ((1 + u) ^ 8 - 1) * κ
    have hγ1 : γ ≤ 1 / 300 := by linarith
    have : 2 * γ / (1 - γ) ≤ 2.01 * γ := by
      rw [div_le_iff₀ (by linarith)]
      nlinarith
    calc 2 * γ / (1 - γ) * size (deckDir deck a) ≤ 2.01 * γ * 1.01 :=
          mul_le_mul this hom (size_nonneg _) (by linarith)
      _ ≤ _ := by linarith
  have hfin := signed_near R hApos.le (t := 9.1 * (u * κ)) (by linarith) (by linarith) (by nlinarith) har' hacc' hΩ1
  refine ⟨hfin.trans ?_, ?_, ?_⟩
  · nlinarith
  · rw [abs_mul, abs_of_pos hApos, mul_comm]
    exact mul_le_mul_of_nonneg_right hΩ1 hApos.le
  · have := (abs_le.1 har').1
    nlinarith

/-- C97: the rounded geometry of a cell is near the exact one. -/
theorem cell_near (R : Rounds u rnd) (hu : u ≤ 1 / 1000) (H : Tets m) (F : Fits val m) (Ds : Describes val deck m p sS)
    (hw : WellShaped u val m) (S : Stout κ val m) (hκ : 31 * u * κ ≤ 1 / 100) {a : Nat} (ha : a < deck.dirs.length)
    (hom : size (deckDir deck a) ≤ 1.01) {c : Nat} {P : Fin 4 → Pt} {q : Fin 4 → Fin 3 → Pt} {dots : Fin 4 → ℝ} (hP : CellPoints val m c P)
    (hq : ∀ f, FacePoints val m c f (q f)) (hx : ∀ f, romega rnd (deckDir deck a) (q f) P = some (dots f)) :
    Near (31 * u * κ) (p.volume c) (rvolume rnd P) (p.area c) (fun f => p.area c f * p.omegaDotN a c f)
      (rsigned rnd (fun f => rarea rnd (q f)) dots) := by
  refine ⟨?_, fun f => (face_near R hu H F Ds hw S hκ ha hom hP (hq f) (hx f)).1⟩
  have hu0 := R.small.1
  obtain ⟨d, hd, hPd⟩ := hP
  have hc := lt_of_get H hd
  have hPp : ∀ v, P v = point val m (d.nodes v) := fun v => position_point (hPd v)
  have hS := S.cells c d hd
  rw [← hPp 0, ← hPp 1, ← hPp 2, ← hPp 3] at hS
  have hV : p.volume c = |det (vec (P 0) (P 3)) (vec (P 0) (P 1)) (vec (P 0) (P 2))| / 6 := by
    rw [Ds.volume c hc, Matrix.det_fin_three]
    congr 2
    have hp : ∀ v, pts val m c v = P v := fun v => by rw [pts_point hd, hPp]
    simp only [Matrix.of_apply, hp, Fin.succ_zero_eq_one, Fin.succ_one_eq_two, show Fin.succ (2 : Fin 3) = 3 from rfl]
    unfold det vec
    ring
  have h := (rounded_volume R P).1
  rw [← hV] at h
  refine h.trans ?_
  have hp10 : 0 ≤ (1 + u) ^ 10 - 1 := by have := one_le_pow₀ (n := 10) (show 1 ≤ 1 + u by linarith); linarith
  have hV0 : 0 ≤ κ * p.volume c := mul_nonneg (by linarith [S.one]) (by rw [hV]; positivity)
  calc _ ≤ ((1 + u) ^ 10 - 1) * (κ * p.volume c) := mul_le_mul_of_nonneg_left (by rw [hV]; linarith) hp10
    _ ≤ (10.2 * u) * (κ * p.volume c) := mul_le_mul_of_nonneg_right (pow10 hu0 hu) hV0
    _ ≤ _ := by nlinarith [mul_nonneg hu0 hV0]

end Verif.Rounding
