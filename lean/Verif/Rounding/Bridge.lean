import Verif.Rounding.Accuracy
import Verif.Program.Regular

/-!
# From the problem in exact arithmetic to the machine (C87)
-/
namespace Verif.Rounding

open Verif.Geometry Verif.Rounding.Spec Verif.MeshFile Verif.TychoMesh Verif.Traverse
open Verif.Floating Verif.Program Verif.Program.Spec Verif.Geometry.Spec

variable {u : ℝ} {rnd : ℝ → ℝ} {val : Nat → ℝ} {deck : Deck} {m : SerialMesh} {p : Problem ℝ} {sS : Nat → ℝ}

theorem pts_point {c : Nat} {d : SCell} (hd : m.cells[c]? = some d) (v : Fin 4) : pts val m c v = point val m (d.nodes v) := by
  unfold pts point
  rw [hd, Option.bind_some]
  cases m.nodes[d.nodes v]? <;> rfl

/-- The determinant with two vectors perpendicular to `n`. -/
theorem det_along {n a b : Pt} (ha : n 0 * a 0 + n 1 * a 1 + n 2 * a 2 = 0) (hb : n 0 * b 0 + n 1 * b 1 + n 2 * b 2 = 0) (w : Pt) :
    (n 0 ^ 2 + n 1 ^ 2 + n 2 ^ 2) * det w a b = det n a b * (n 0 * w 0 + n 1 * w 1 + n 2 * w 2) := by
  have p01 : n 0 * (a 2 * b 0 - a 0 * b 2) = n 1 * (a 1 * b 2 - a 2 * b 1) := by linear_combination a 2 * hb - b 2 * ha
  have p02 : n 0 * (a 0 * b 1 - a 1 * b 0) = n 2 * (a 1 * b 2 - a 2 * b 1) := by linear_combination b 1 * ha - a 1 * hb
  have p12 : n 1 * (a 0 * b 1 - a 1 * b 0) = n 2 * (a 2 * b 0 - a 0 * b 2) := by linear_combination a 0 * hb - b 0 * ha
  unfold det
  linear_combination (w 1 * n 0 - w 0 * n 1) * p01 + (w 2 * n 0 - w 0 * n 2) * p02 + (w 2 * n 1 - w 1 * n 2) * p12

theorem lt_of_get {c : Nat} (H : Tets m) {d : SCell} (hd : m.cells[c]? = some d) : c < m.numCells := by
  have h1 := (List.getElem?_eq_some_iff.1 hd).1
  rw [H.cells]
  exact h1

/-- A node of a face is a vertex other than the opposite one. -/
theorem node_vertex (H : Tets m) {c g : Nat} {f : Fin 4} {d : SCell} {e : SFace} (h : FaceOf m c f g) (hd : m.cells[c]? = some d)
    (he : m.faces[g]? = some e) (j : Fin 3) : ∃ i, i ≠ f ∧ e.nodes j = d.nodes i := by
  obtain ⟨d', e', k, h1, h2, h3, h4⟩ := h
  rw [hd, Option.some.injEq] at h1
  rw [he, Option.some.injEq] at h3
  subst h1 h3
  obtain ⟨i, hi⟩ := H.faceNode c d k e hd (by rw [h2]; exact he) j
  exact ⟨i, by rintro rfl; exact h4 j hi, hi⟩

/-- C87: the cells at an interior face are on different sides of it if the cells fit together. -/
theorem opposed_of_fits (hu : 0 ≤ u) (H : Tets m) (F : Fits val m) (hw : WellShaped u val m) : Opposed val m := by
  intro c f c' f' g d d' e hne h h' hd hd' he
  obtain ⟨n0, n1, n2, δ, s1, s2, s3⟩ := F.sides c f c' f' ⟨hne, g, h, h'⟩
  have hq : ∀ j, n0 * point val m (e.nodes j) 0 + n1 * point val m (e.nodes j) 1 + n2 * point val m (e.nodes j) 2 = δ := by
    intro j
    obtain ⟨i, hi, hij⟩ := node_vertex H h hd he j
    obtain ⟨v, rfl⟩ := Fin.exists_succAbove_eq hi
    have := s1 v
    unfold facePoints at this
    rw [pts_point hd, ← hij] at this
    exact this
  rw [pts_point hd] at s2
  rw [pts_point hd'] at s3
  set A := vec (point val m (e.nodes 0)) (point val m (e.nodes 1)) with hA
  set B := vec (point val m (e.nodes 0)) (point val m (e.nodes 2)) with hB
  have ka : (![n0, n1, n2] : Pt) 0 * A 0 + (![n0, n1, n2] : Pt) 1 * A 1 + (![n0, n1, n2] : Pt) 2 * A 2 = 0 := by
    show n0 * (_ - _) + n1 * (_ - _) + n2 * (_ - _) = 0
    linear_combination hq 1 - hq 0
  have kb : (![n0, n1, n2] : Pt) 0 * B 0 + (![n0, n1, n2] : Pt) 1 * B 1 + (![n0, n1, n2] : Pt) 2 * B 2 = 0 := by
    show n0 * (_ - _) + n1 * (_ - _) + n2 * (_ - _) = 0
    linear_combination hq 2 - hq 0
  have e1 := det_along ka kb (vec (point val m (e.nodes 0)) (point val m (d.nodes f)))
  have e2 := det_along ka kb (vec (point val m (e.nodes 0)) (point val m (d'.nodes f')))
  change (n0 ^ 2 + n1 ^ 2 + n2 ^ 2) * _ = _ * (n0 * (_ - _) + n1 * (_ - _) + n2 * (_ - _)) at e1 e2
  have z1 := clear_apart hu (hw c f g d e h hd he)
  have z2 := clear_apart hu (hw c' f' g d' e h' hd' he)
  have y1 : n0 * (point val m (d.nodes f) 0 - point val m (e.nodes 0) 0) + n1 * (point val m (d.nodes f) 1 - point val m (e.nodes 0) 1) +
      n2 * (point val m (d.nodes f) 2 - point val m (e.nodes 0) 2) < 0 := by linarith [hq 0]
  have y2 : 0 < n0 * (point val m (d'.nodes f') 0 - point val m (e.nodes 0) 0) + n1 * (point val m (d'.nodes f') 1 - point val m (e.nodes 0) 1) +
      n2 * (point val m (d'.nodes f') 2 - point val m (e.nodes 0) 2) := by linarith [hq 0]
  have hN : 0 < n0 ^ 2 + n1 ^ 2 + n2 ^ 2 := by
    rcases (by positivity : 0 ≤ n0 ^ 2 + n1 ^ 2 + n2 ^ 2).eq_or_lt with h0 | h0
    · exfalso
      have a0 : n0 = 0 := by nlinarith [sq_nonneg n0, sq_nonneg n1, sq_nonneg n2]
      have a1 : n1 = 0 := by nlinarith [sq_nonneg n0, sq_nonneg n1, sq_nonneg n2]
      have a2 : n2 = 0 := by nlinarith [sq_nonneg n0, sq_nonneg n1, sq_nonneg n2]
      rw [a0, a1, a2] at y1
      simp at y1
    · exact h0
  set X := det (vec (point val m (e.nodes 0)) (point val m (d.nodes f))) A B
  set Y := det (vec (point val m (e.nodes 0)) (point val m (d'.nodes f'))) A B
  set l := det ![n0, n1, n2] A B
  have hl : l ≠ 0 := by
    intro h0
    rw [h0, zero_mul] at e1
    rcases mul_eq_zero.1 e1 with h2 | h2
    · exact hN.ne' h2
    · exact z1 h2
  have hprod : (n0 ^ 2 + n1 ^ 2 + n2 ^ 2) * X * ((n0 ^ 2 + n1 ^ 2 + n2 ^ 2) * Y) < 0 := by
    rw [e1, e2]
    have hl2 : 0 < l * l := mul_self_pos.2 hl
    have := mul_neg_of_pos_of_neg hl2 (mul_neg_of_neg_of_pos y1 y2)
    linarith
  by_contra hh
  push Not at hh
  have : 0 ≤ (n0 ^ 2 + n1 ^ 2 + n2 ^ 2) * (n0 ^ 2 + n1 ^ 2 + n2 ^ 2) * (X * Y) := mul_nonneg (mul_nonneg hN.le hN.le) hh
  linarith

/-- Direction `a` of the deck. -/
noncomputable def deckDir (deck : Deck) (a : Nat) : Pt := (deck.omega[a]?).getD 0

/-- What leaves a cell in exact arithmetic is where the product with the outward normal is positive. -/
theorem leaves_pos (H : Tets m) (F : Fits val m) (Ds : Describes val deck m p sS) {a c : Nat} {f : Fin 4} (ha : a < deck.dirs.length)
    (h : Leaves val m (deckDir deck a) c f) : 0 < p.omegaDotN a c f := by
  obtain ⟨g, d, e, hg, hd, he, hlt⟩ := h
  have hc := lt_of_get H hd
  obtain ⟨n, -, hn⟩ := normal_outward (pts val m c) f f.succAbove ⟨fun v w h => Fin.succAbove_right_injective h, fun v => Fin.succAbove_ne f v⟩
    (F.nondeg c hc)
  have hdir : deck.dirs[a]? = some deck.dirs[a] := List.getElem?_eq_getElem ha
  have hom : deckDir deck a = ![deck.dirs[a].xi, deck.dirs[a].eta, deck.dirs[a].mu] := by
    unfold deckDir Deck.omega
    rw [List.getElem?_map, hdir]; rfl
  rw [Ds.omega c hc f n hn a _ hdir]
  obtain ⟨q1, q2, q3⟩ := hn
  have hperp : ∀ j, n 0 * vec (point val m (e.nodes 0)) (point val m (e.nodes j)) 0 +
      n 1 * vec (point val m (e.nodes 0)) (point val m (e.nodes j)) 1 + n 2 * vec (point val m (e.nodes 0)) (point val m (e.nodes j)) 2 = 0 := by
    intro j
    obtain ⟨i, hi, hij⟩ := node_vertex H hg hd he j
    obtain ⟨i', hi', hij'⟩ := node_vertex H hg hd he 0
    have := q2 i i' hi hi'
    rw [pts_point hd, pts_point hd, ← hij, ← hij'] at this
    exact this
  have hV : n 0 * vec (point val m (e.nodes 0)) (point val m (d.nodes f)) 0 +
      n 1 * vec (point val m (e.nodes 0)) (point val m (d.nodes f)) 1 + n 2 * vec (point val m (e.nodes 0)) (point val m (d.nodes f)) 2 < 0 := by
    obtain ⟨i', hi', hij'⟩ := node_vertex H hg hd he 0
    have := q3 i' hi'
    rw [pts_point hd, pts_point hd, ← hij'] at this
    exact this
  have e1 := det_along (hperp 1) (hperp 2) (deckDir deck a)
  have e2 := det_along (hperp 1) (hperp 2) (vec (point val m (e.nodes 0)) (point val m (d.nodes f)))
  rw [q1, one_mul] at e1 e2
  rw [e1, e2] at hlt
  set l := det n (vec (point val m (e.nodes 0)) (point val m (e.nodes 1))) (vec (point val m (e.nodes 0)) (point val m (e.nodes 2)))
  set y := n 0 * vec (point val m (e.nodes 0)) (point val m (d.nodes f)) 0 +
      n 1 * vec (point val m (e.nodes 0)) (point val m (d.nodes f)) 1 + n 2 * vec (point val m (e.nodes 0)) (point val m (d.nodes f)) 2
  rw [hom] at hlt
  change l * (n 0 * deck.dirs[a].xi + n 1 * deck.dirs[a].eta + n 2 * deck.dirs[a].mu) * (l * y) < 0 at hlt
  by_contra hh
  push Not at hh
  have h1 : 0 ≤ (n 0 * deck.dirs[a].xi + n 1 * deck.dirs[a].eta + n 2 * deck.dirs[a].mu) * y :=
    mul_nonneg_of_nonpos_of_nonpos (by linarith) hV.le
  have h2 : 0 ≤ l * l * ((n 0 * deck.dirs[a].xi + n 1 * deck.dirs[a].eta + n 2 * deck.dirs[a].mu) * y) := mul_nonneg (mul_self_nonneg l) h1
  linarith

theorem acyclic_of (H : Tets m) (F : Fits val m) (Ds : Describes val deck m p sS) (hac : p.Acyclic m) :
    Spec.Acyclic val (deckDir deck) deck.dirs.length m := by
  intro a ha c h
  refine hac a (by rw [Ds.angles]; exact ha) c (h.lift id ?_)
  rintro c c' ⟨f, f', h1, h2⟩
  exact ⟨f, f', h1, leaves_pos H F Ds ha h2⟩

/-- C87: a mesh on which the sweeps in exact arithmetic have no cycle is one on which the rounded ones have
none, if rounding cannot hide the volume of a cell or turn a direction over an interior face. -/
theorem machine_sorted {nG : Nat} {K : Kernel ℝ deck.dirs.length nG} (R : Rounds u rnd) (H : Tets m) (F : Fits val m)
    (Ds : Describes val deck m p sS) (hac : p.Acyclic m) (hK : Computes rnd (deckDir deck) K) (hw : WellShaped u val m)
    (hi : Inclined u val (deckDir deck) deck.dirs.length m) : Sorted K val m :=
  rounded_sorted R H hK hw (opposed_of_fits R.small.1 H F hw) hi (acyclic_of H F Ds hac)

/-- C87: on such Delaunay meshes the sweeps of the machine come to an end, on every partition, with every
number of threads and batch size. -/
theorem delaunay_machine {nG : Nat} {K : Kernel ℝ deck.dirs.length nG} {pv : List Nat} {n : Nat} {P : ParallelMesh} {T : Nat → Mesh}
    (R : Rounds u rnd) (H : Created m pv n P) (hn : n < uintMax) (L : Loaded val P T) (F : Fits val m) (hs : Sensible val deck m)
    (hD : Delaunay val m) (hK : Computes rnd (deckDir deck) K)
    (hw : WellShaped u val m) (hi : Inclined u val (deckDir deck) deck.dirs.length m)
    (hsize : ∀ r < n, deck.dirs.length * (T r).nCells < 2 ^ 64) (sched : Schedule ℝ)
    (ht : 0 < sched.threads) (hb : 0 < sched.batch) (hproto : sched.protocol = .tycho) :
    ∃ D, Verif.Floating.Started K val P T D ∧ ∀ k, ∃ psi, K.Iterated n T D k psi := by
  obtain ⟨p, sS, Ds⟩ := describes_exists H.tets F hs
  obtain ⟨D, hst⟩ := rounded_started R H L hK hw hs.material
  exact ⟨D, hst, fun k => iterated_exists H hn L hst
    (machine_sorted R H.tets F Ds (regular_acyclic H.tets F (hD.regular H.tets) Ds) hK hw hi) hsize sched ht hb hproto k⟩

end Verif.Rounding
