import Verif.Rounding.Lemmas
import Verif.Floating.Start

/-!
# Rounding does not change the order of a sweep (C87)
-/
set_option linter.unusedSectionVars false
namespace Verif.Rounding

open Verif.Geometry Verif.Rounding.Spec Verif.MeshFile Verif.TychoMesh Verif.Traverse
open Verif.Floating Verif.Floating.Spec

variable {u : ℝ} {rnd : ℝ → ℝ}

theorem opposite_find {q : Fin 3 → Pt} {p : Fin 4 → Pt} {f : Fin 4} (h1 : ∀ i, i ≠ f → ∃ j, p i = q j) (h2 : ∀ j, p f ≠ q j) :
    oppositeIndex q p = some f := by
  unfold oppositeIndex
  have no : ∀ i, i ≠ f → ∃ v, p i 0 = q v 0 ∧ p i 1 = q v 1 ∧ p i 2 = q v 2 := by
    intro i hi
    obtain ⟨j, hj⟩ := h1 i hi
    exact ⟨j, by rw [hj], by rw [hj], by rw [hj]⟩
  have yes : ¬ ∃ v, p f 0 = q v 0 ∧ p f 1 = q v 1 ∧ p f 2 = q v 2 := by
    rintro ⟨v, a, b, c⟩
    refine h2 v (funext fun k => ?_)
    match k with
    | 0 => exact a
    | 1 => exact b
    | 2 => exact c
  rw [List.find?_eq_some_iff_append]
  refine ⟨by simpa using yes, (List.finRange 4).take f, (List.finRange 4).drop (f + 1), ?_, ?_⟩
  · clear h1 h2 no yes; revert f; decide
  · intro i hi
    have : i ≠ f := by
      revert hi
      clear h1 h2 no yes
      revert i f
      decide
    simpa using no i this

theorem det_self (a b : Pt) : det a a b = 0 ∧ det b a b = 0 := by unfold det; constructor <;> ring

theorem clear_apart {k : ℕ} (hu : 0 ≤ u) {w a b : Pt} (h : Clear u k w a b) : det w a b ≠ 0 := by
  intro e
  unfold Clear at h
  rw [e, abs_zero] at h
  have h1 := one_le_pow' hu k
  have h2 : 0 ≤ perm w a b := by unfold perm; positivity
  nlinarith

/-- The vertex opposite to a face is none of its points. -/
theorem vertex_apart {k : ℕ} (hu : 0 ≤ u) {q : Fin 3 → Pt} {x : Pt} (h : Clear u k (vec (q 0) x) (vec (q 0) (q 1)) (vec (q 0) (q 2))) (j : Fin 3) :
    x ≠ q j := by
  rintro rfl
  refine clear_apart hu h ?_
  match j with
  | 0 => unfold det vec; simp
  | 1 => exact (det_self _ _).1
  | 2 => exact (det_self _ _).2

/-- The rounded normal before it is turned outward. -/
noncomputable def rawNormal (rnd : ℝ → ℝ) (q : Fin 3 → Pt) : Pt := fun i => rnd (crossOf rnd q i / rnorm rnd (crossOf rnd q))

theorem dot_sign (R : Rounds u rnd) (q : Fin 3 → Pt) {k : ℕ} {x w : Pt} (hx : ∀ i, App u k (x i) (w i) |w i|)
    (hc : Clear u (k + 8) w (vec (q 0) (q 1)) (vec (q 0) (q 2))) :
    (0 < rdot rnd x (rawNormal rnd q) ↔ 0 < det w (vec (q 0) (q 1)) (vec (q 0) (q 2))) ∧
    (rdot rnd x (rawNormal rnd q) < 0 ↔ det w (vec (q 0) (q 1)) (vec (q 0) (q 2)) < 0) := by
  have hN := norm_pos R q (by omega) hc
  have h := dot_app R q hN hx
  have h2 := h.sign (by
    rw [abs_div, abs_of_pos hN, ← mul_div_assoc]
    exact div_lt_div_of_pos_right hc hN)
  refine ⟨h2.1.trans (div_pos_iff_of_pos_right hN), h2.2.trans ?_⟩
  rw [div_lt_iff₀ hN, zero_mul]

/-- C87: `getNormal` in rounded arithmetic turns the normal outward: to the side where the vertex is not,
exactly. -/
theorem rounded_normal (R : Rounds u rnd) {q : Fin 3 → Pt} {p : Fin 4 → Pt} {f : Fin 4} (h1 : ∀ i, i ≠ f → ∃ j, p i = q j)
    (hc : Clear u 9 (vec (q 0) (p f)) (vec (q 0) (q 1)) (vec (q 0) (q 2))) :
    rnormal rnd q p = some fun k =>
      if 0 < det (vec (q 0) (p f)) (vec (q 0) (q 1)) (vec (q 0) (q 2)) then -rawNormal rnd q k else rawNormal rnd q k := by
  have hN := norm_pos R q (by omega) hc
  have hs := (dot_sign R q (fun i => rsub_app R (p f) (q 0) i) hc).1
  unfold rnormal
  simp only [opposite_find h1 (vertex_apart R.small.1 hc)]
  rw [if_neg (show ¬ rnorm rnd (rcross rnd (rsub rnd (q 1) (q 0)) (rsub rnd (q 2) (q 0))) = 0 from hN.ne')]
  rw [rdot_comm] at hs
  by_cases hd : 0 < det (vec (q 0) (p f)) (vec (q 0) (q 1)) (vec (q 0) (q 2))
  · simp only [hd, if_true]
    exact if_pos (hs.2 hd)
  · simp only [hd, if_false]
    exact if_neg fun h => hd (hs.1 h)

/-- C87: the entry of `c_omegaDotN` that the machine stores. -/
theorem rounded_omega (R : Rounds u rnd) {q : Fin 3 → Pt} {p : Fin 4 → Pt} {f : Fin 4} (h1 : ∀ i, i ≠ f → ∃ j, p i = q j)
    (hc : Clear u 9 (vec (q 0) (p f)) (vec (q 0) (q 1)) (vec (q 0) (q 2))) (om : Pt) :
    romega rnd om q p = some
      (if 0 < det (vec (q 0) (p f)) (vec (q 0) (q 1)) (vec (q 0) (q 2)) then -rdot rnd om (rawNormal rnd q)
        else rdot rnd om (rawNormal rnd q)) := by
  unfold romega
  rw [rounded_normal R h1 hc, Option.map_some]
  split
  · rw [rdot_neg R]
  · rfl

/-- C87: the volume the machine stores is positive and differs from the exact one by at most ten
roundings of the terms. -/
theorem rounded_volume (R : Rounds u rnd) (p : Fin 4 → Pt) :
    |rvolume rnd p - |det (vec (p 0) (p 3)) (vec (p 0) (p 1)) (vec (p 0) (p 2))| / 6| ≤
      ((1 + u) ^ 10 - 1) * (perm (vec (p 0) (p 3)) (vec (p 0) (p 1)) (vec (p 0) (p 2)) / 6) ∧
    (Clear u 8 (vec (p 0) (p 3)) (vec (p 0) (p 1)) (vec (p 0) (p 2)) → 0 < rvolume rnd p) := by
  have hu := R.small.1
  have h := rdot_app R (rcross_app R (rsub_app R (p 1) (p 0)) (rsub_app R (p 2) (p 0))) (rsub_app R (p 3) (p 0))
  have h8 : App u 8 (rdot rnd (rcross rnd (rsub rnd (p 1) (p 0)) (rsub rnd (p 2) (p 0))) (rsub rnd (p 3) (p 0)))
      (det (vec (p 0) (p 3)) (vec (p 0) (p 1)) (vec (p 0) (p 2))) (perm (vec (p 0) (p 3)) (vec (p 0) (p 1)) (vec (p 0) (p 2))) := by
    convert h using 1
    · rw [det_eq]; ring
    · unfold perm
      show _ = (|vec (p 0) (p 1) 1| * |vec (p 0) (p 2) 2| + |vec (p 0) (p 1) 2| * |vec (p 0) (p 2) 1|) * _ +
        (|vec (p 0) (p 1) 2| * |vec (p 0) (p 2) 0| + |vec (p 0) (p 1) 0| * |vec (p 0) (p 2) 2|) * _ +
        (|vec (p 0) (p 1) 0| * |vec (p 0) (p 2) 1| + |vec (p 0) (p 1) 1| * |vec (p 0) (p 2) 0|) * _
      ring
  constructor
  · have hs := (((App.exact (u := u) (1.0 / 6.0)).round R).mul hu h8.fabs).round R
    have := hs.1
    rw [show |(1.0 / 6.0 : ℝ)| = 1 / 6 by norm_num [abs_of_pos]] at this
    norm_num at this ⊢
    unfold rvolume
    norm_num
    convert this using 2 <;> ring_nf
  · intro hc
    refine R.pos (mul_pos (R.pos (by norm_num)) (abs_pos.2 fun e => ?_))
    have h2 := h8.sign hc
    rw [e] at h2
    rcases lt_trichotomy (det (vec (p 0) (p 3)) (vec (p 0) (p 1)) (vec (p 0) (p 2))) 0 with hd | hd | hd
    · exact lt_irrefl _ (h2.2.2 hd)
    · exact clear_apart hu hc hd
    · exact lt_irrefl _ (h2.1.2 hd)

/-! ### On the mesh -/

variable {nA nG : Nat} {K : Kernel ℝ nA nG} {val : Nat → ℝ} {dirs : Nat → Pt} {m : SerialMesh}

theorem position_point {i : Nat} {x : Pt} (h : Position val m i x) : x = point val m i := by
  obtain ⟨nd, h1, h2⟩ := h
  rw [h2]
  funext k
  unfold point
  rw [h1]; rfl

/-- The points of a face are the other vertices. -/
theorem others_on_face (H : Tets m) {c g : Nat} {f : Fin 4} {d : SCell} {e : SFace} (h : FaceOf m c f g) (hd : m.cells[c]? = some d)
    (he : m.faces[g]? = some e) {i : Fin 4} (hi : i ≠ f) : ∃ j, e.nodes j = d.nodes i := by
  obtain ⟨d', e', k, h1, h2, h3, h4⟩ := h
  rw [hd, Option.some.injEq] at h1
  rw [he, Option.some.injEq] at h3
  subst h1 h3
  obtain ⟨σ, -, hs⟩ := H.omits c d hd
  have hs := hs k e (by rw [h2]; exact he)
  have hf : f = σ k := by
    by_contra hne
    obtain ⟨j, hj⟩ := (hs f).2 hne
    exact h4 j hj
  exact (hs i).2 (by rw [← hf]; exact hi)

/-- The points of face `e`. -/
def pointsOf (val : Nat → ℝ) (m : SerialMesh) (e : SFace) : Fin 3 → Pt := fun j => point val m (e.nodes j)

theorem dot_value (R : Rounds u rnd) (H : Tets m) (hK : Computes rnd dirs K) (hw : WellShaped u val m) {a c : Nat} {f : Fin 4} {x : ℝ}
    (h : Dot K val m a c f x) {g : Nat} {d : SCell} {e : SFace} (hg : FaceOf m c f g) (hd : m.cells[c]? = some d)
    (he : m.faces[g]? = some e) :
    x = if 0 < det (vec (point val m (e.nodes 0)) (point val m (d.nodes f))) (vec (point val m (e.nodes 0)) (point val m (e.nodes 1)))
        (vec (point val m (e.nodes 0)) (point val m (e.nodes 2))) then -rdot rnd (dirs a) (rawNormal rnd (pointsOf val m e))
      else rdot rnd (dirs a) (rawNormal rnd (pointsOf val m e)) := by
  obtain ⟨q, p, ⟨g', e', h1, h2, h3⟩, ⟨d', h4, h5⟩, h6⟩ := h
  obtain rfl := faceOf_unique H h1 hg
  rw [he, Option.some.injEq] at h2
  rw [hd, Option.some.injEq] at h4
  subst h2 h4
  obtain rfl : q = pointsOf val m e := funext fun j => position_point (h3 j)
  obtain rfl : p = fun v => point val m (d.nodes v) := funext fun v => position_point (h5 v)
  rw [hK.omegaDotN] at h6
  dsimp only at h6
  rw [rounded_omega R (f := f) (fun i hi => by
    obtain ⟨j, hj⟩ := others_on_face H hg hd he hi
    exact ⟨j, by unfold pointsOf; rw [hj]⟩) (hw c f _ d e hg hd he), Option.some.injEq] at h6
  exact h6.symm

/-- C87: the products of a direction with the normals of an interior face are, as computed on the two
sides of it, exactly opposite. -/
theorem rounded_opposite (R : Rounds u rnd) (H : Tets m) (hK : Computes rnd dirs K) (hw : WellShaped u val m) (ho : Opposed val m)
    {a c c' : Nat} {f f' : Fin 4} {x x' : ℝ} (h : Across m c f c' f') (hx : Dot K val m a c f x) (hx' : Dot K val m a c' f' x') :
    x' = -x := by
  obtain ⟨hne, g, hg, hg'⟩ := h
  obtain ⟨d, e, k, h1, -, h3, -⟩ := id hg
  obtain ⟨d', e', k', h1', -, h3', -⟩ := id hg'
  rw [h3, Option.some.injEq] at h3'
  subst h3'
  rw [dot_value R H hK hw hx hg h1 h3, dot_value R H hK hw hx' hg' h1' h3]
  have := ho c f c' f' g d d' e hne hg hg' h1 h1' h3
  rcases mul_neg_iff.1 this with ⟨a1, a2⟩ | ⟨a1, a2⟩
  · rw [if_pos a1, if_neg (not_lt.2 a2.le), neg_neg]
  · rw [if_pos a2, if_neg (not_lt.2 a1.le)]

/-- C87: so no interior face is outgoing from both sides, and C86 applies. -/
theorem rounded_consistent (R : Rounds u rnd) (H : Tets m) (hK : Computes rnd dirs K) (hw : WellShaped u val m) (ho : Opposed val m) :
    Consistent K val m := by
  intro c f c' f' h a _ x x' hx hx' hp
  have e := rounded_opposite R H hK hw ho h hx hx'
  rw [hK.positive] at hp
  by_contra hh
  rw [Bool.not_eq_false, hK.positive] at hh
  linarith

/-- C87: a direction leaves a cell through an interior face for the machine if and only if it does in
exact arithmetic. -/
theorem rounded_sign (R : Rounds u rnd) (H : Tets m) (hK : Computes rnd dirs K) (hw : WellShaped u val m)
    (hi : Inclined u val dirs nA m) {a c c' : Nat} (ha : a < nA) {f f' : Fin 4} {x : ℝ} (h : Across m c f c' f') (hx : Dot K val m a c f x) :
    (0 < x ↔ Leaves val m (dirs a) c f) ∧ x ≠ 0 := by
  obtain ⟨hne, g, hg, hg'⟩ := h
  obtain ⟨d, e, k, h1, -, h3, -⟩ := id hg
  have hv := dot_value R H hK hw hx hg h1 h3
  have hc := hi c f c' f' g e hne hg hg' h3 a ha
  have hs := dot_sign R (pointsOf val m e) (fun i => App.exact (u := u) (dirs a i)) hc
  have hnz := clear_apart R.small.1 hc
  have hcw := clear_apart R.small.1 (hw c f g d e hg h1 h3)
  have hL : Leaves val m (dirs a) c f ↔
      det (dirs a) (vec (point val m (e.nodes 0)) (point val m (e.nodes 1))) (vec (point val m (e.nodes 0)) (point val m (e.nodes 2))) *
      det (vec (point val m (e.nodes 0)) (point val m (d.nodes f))) (vec (point val m (e.nodes 0)) (point val m (e.nodes 1)))
        (vec (point val m (e.nodes 0)) (point val m (e.nodes 2))) < 0 := by
    constructor
    · rintro ⟨g2, d2, e2, k1, k2, k3, k4⟩
      obtain rfl := faceOf_unique H k1 hg
      rw [h1, Option.some.injEq] at k2
      rw [h3, Option.some.injEq] at k3
      subst k2 k3
      exact k4
    · exact fun k4 => ⟨g, d, e, hg, h1, h3, k4⟩
  rw [hL]
  unfold pointsOf at hs
  set D := det (dirs a) (vec (point val m (e.nodes 0)) (point val m (e.nodes 1))) (vec (point val m (e.nodes 0)) (point val m (e.nodes 2)))
  set V := det (vec (point val m (e.nodes 0)) (point val m (d.nodes f))) (vec (point val m (e.nodes 0)) (point val m (e.nodes 1)))
        (vec (point val m (e.nodes 0)) (point val m (e.nodes 2)))
  unfold pointsOf at hv
  set r := rdot rnd (dirs a) (rawNormal rnd fun j => point val m (e.nodes j))
  have hr : r ≠ 0 := by
    intro e0
    rcases lt_or_gt_of_ne hnz with hh | hh
    · have := hs.2.2 hh
      linarith
    · have := hs.1.2 hh
      linarith
  by_cases hV : 0 < V
  · rw [if_pos hV] at hv
    refine ⟨?_, by rw [hv]; exact neg_ne_zero.2 hr⟩
    rw [hv, neg_pos, hs.2]
    constructor
    · exact fun hD => mul_neg_of_neg_of_pos hD hV
    · intro hm
      rcases mul_neg_iff.1 hm with ⟨_, b⟩ | ⟨b, _⟩
      · linarith
      · exact b
  · rw [if_neg hV] at hv
    have hV' : V < 0 := lt_of_le_of_ne (not_lt.1 hV) hcw
    refine ⟨?_, by rw [hv]; exact hr⟩
    rw [hv, hs.1]
    constructor
    · exact fun hD => mul_neg_of_pos_of_neg hD hV'
    · intro hm
      rcases mul_neg_iff.1 hm with ⟨b, _⟩ | ⟨_, b⟩
      · exact b
      · linarith

/-- C87: if exact arithmetic has no cycle then the machine has none, and every interior face is outgoing
from exactly one side. -/
theorem rounded_sorted (R : Rounds u rnd) (H : Tets m) (hK : Computes rnd dirs K) (hw : WellShaped u val m) (ho : Opposed val m)
    (hi : Inclined u val dirs nA m) (hac : Spec.Acyclic val dirs nA m) : Sorted K val m := by
  refine ⟨rounded_consistent R H hK hw ho, ?_, ?_⟩
  · intro c f c' f' h a ha x x' hx hx' hp
    have e := rounded_opposite R H hK hw ho h hx hx'
    have hnz := (rounded_sign R H hK hw hi ha h hx).2
    rw [hK.positive]
    have : ¬ 0 < x := fun hh => by rw [(hK.positive x).2 hh] at hp; simp at hp
    rcases lt_or_gt_of_ne hnz with hh | hh
    · linarith
    · exact absurd hh this
  · intro a ha c h
    refine hac a ha c (h.lift id ?_)
    rintro c c' ⟨f, f', x, h1, h2, h3⟩
    exact ⟨f, f', h1, (rounded_sign R H hK hw hi ha h1 h2).1.1 ((hK.positive x).1 h3)⟩

/-- C87: the set-up succeeds: no normal is a division by zero and no search runs past the vertices. -/
theorem rounded_started {S : Type} [LinearOrder S] {sval : Nat → S} {pv : List Nat} {n : Nat} {P : ParallelMesh} {T : Nat → Mesh}
    (R : Rounds u rnd) (H : Created m pv n P) (L : Loaded sval P T) (hK : Computes rnd dirs K) (hw : WellShaped u val m)
    (hm : ∀ d ∈ m.cells, d.material = 1 ∨ d.material = 2) : ∃ D, Started K val P T D := by
  refine started_exists H L hm ?_
  rintro c f q p ⟨g, e, h1, h2, h3⟩ ⟨d, h4, h5⟩ a -
  obtain rfl : q = pointsOf val m e := funext fun j => position_point (h3 j)
  obtain rfl : p = fun v => point val m (d.nodes v) := funext fun v => position_point (h5 v)
  rw [hK.omegaDotN]
  dsimp only
  rw [rounded_omega R (f := f) (fun i hi => by
    obtain ⟨j, hj⟩ := others_on_face H.tets h1 h4 h2 hi
    exact ⟨j, by unfold pointsOf; rw [hj]⟩) (hw c f g d e h1 h4 h2)]
  exact ⟨_, rfl⟩

end Verif.Rounding
