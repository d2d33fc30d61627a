import Verif.Rounding.Double
import Verif.Rounding.Bridge
import Verif.Floating.Example

/-!
# An example for C87: two tetrahedra in double precision
-/
namespace Verif.Rounding

open Verif.Geometry Verif.Rounding.Spec Verif.MeshFile Verif.TychoMesh Verif.Traverse Verif.Program
open Verif.Floating Verif.Floating.Spec

open Classical in
/-- A kernel over the doubles: the geometry as the code computes it, something simple for the rest. -/
noncomputable def kernel53 (nA : Nat) (dirs : Nat → Pt) : Kernel ℝ nA 1 where
  zero := 0
  volume := rvolume binary64
  area := rarea binary64
  omegaDotN a := romega binary64 (dirs a)
  positive x := decide (0 < x)
  sigmaT1 := 3
  sigmaS1 := 1
  sigmaT2 := 5
  sigmaS2 := 2
  source a x sT sS := binary64 (x 0 * binary64 (sT - sS))
  solve vol area dots sT c2f inc src v g := binary64 (binary64 (src v g * vol) + binary64 (inc (c2f 0 v) 0 g * binary64 (area 0 * dots 0)))
  toPhi psi := binary64 (∑ a, psi a)
  total s sS phi := binary64 (s + binary64 (sS * phi))

theorem kernel53_computes (nA : Nat) (dirs : Nat → Pt) : Computes binary64 dirs (kernel53 nA dirs) where
  volume := rfl
  area := rfl
  omegaDotN := rfl
  positive x := by simp [kernel53]

/-- Up and down. -/
noncomputable def upDown (a : Nat) : Pt := if a = 0 then ![1 / 3, 2 / 3, 2 / 3] else ![-1 / 3, -2 / 3, -2 / 3]

/-! Integer coordinates. -/

def ipoint (i : Nat) : Fin 3 → ℤ := fun k => ((twoMesh.nodes[i]?).map fun nd => (nd.coords k : ℤ)).getD 0

def ivec (i j : Nat) : Fin 3 → ℤ := fun k => ipoint j k - ipoint i k

def idet (w a b : Fin 3 → ℤ) : ℤ :=
  w 0 * (a 1 * b 2 - a 2 * b 1) + w 1 * (a 2 * b 0 - a 0 * b 2) + w 2 * (a 0 * b 1 - a 1 * b 0)

theorem point_int (i : Nat) : point twoVal twoMesh i = fun k => (ipoint i k : ℝ) := by
  funext k
  unfold point ipoint twoVal
  cases twoMesh.nodes[i]? <;> simp

theorem vec_int (i j : Nat) : vec (point twoVal twoMesh i) (point twoVal twoMesh j) = fun k => (ivec i j k : ℝ) := by
  funext k
  unfold vec ivec
  rw [point_int, point_int]
  push_cast
  rfl

theorem det_int (w a b : Fin 3 → ℤ) : det (fun k => (w k : ℝ)) (fun k => (a k : ℝ)) (fun k => (b k : ℝ)) = (idet w a b : ℝ) := by
  unfold det idet
  push_cast
  rfl

/-- The cells and faces of the mesh. -/
theorem two_cases {c g : Nat} {f : Fin 4} {d : SCell} {e : SFace} (h : FaceOf twoMesh c f g) (hd : twoMesh.cells[c]? = some d)
    (he : twoMesh.faces[g]? = some e) : c < 2 ∧ g = crudeFace c f ∧ twoMesh.cells[c]? = some d ∧ twoMesh.faces[crudeFace c f]? = some e := by
  have hc : c < 2 := (List.getElem?_eq_some_iff.1 hd).1
  obtain rfl := faceOf_unique twoMesh_tets h (crude_faceOf hc f)
  exact ⟨hc, rfl, hd, he⟩

theorem two_shaped : WellShaped (2 ^ (-53 : ℤ)) twoVal twoMesh := by
  intro c f g d e h hd he
  obtain ⟨hc, rfl, hd, he⟩ := two_cases h hd he
  have key : ∀ c < 2, ∀ f, ∀ d ∈ twoMesh.cells[c]?, ∀ e ∈ twoMesh.faces[crudeFace c f]?,
      1000 ≤ |idet (ivec (e.nodes 0) (d.nodes f)) (ivec (e.nodes 0) (e.nodes 1)) (ivec (e.nodes 0) (e.nodes 2))| ∧
      ∀ k, |ivec (e.nodes 0) (d.nodes f) k| ≤ 20 ∧ |ivec (e.nodes 0) (e.nodes 1) k| ≤ 20 ∧ |ivec (e.nodes 0) (e.nodes 2) k| ≤ 20 := by
    decide +kernel
  obtain ⟨k1, k2⟩ := key c hc f d hd e he
  rw [vec_int, vec_int, vec_int]
  refine clear_double (h := 20) (fun k => ?_) (fun k => ?_) (fun k => ?_) ?_ le_rfl
  · exact_mod_cast (k2 k).1
  · exact_mod_cast (k2 k).2.1
  · exact_mod_cast (k2 k).2.2
  · rw [det_int]
    have : (1000 : ℝ) ≤ |((idet (ivec (e.nodes 0) (d.nodes f)) (ivec (e.nodes 0) (e.nodes 1)) (ivec (e.nodes 0) (e.nodes 2)) : ℤ) : ℝ)| := by
      exact_mod_cast k1
    norm_num
    linarith

theorem two_opposed : Opposed twoVal twoMesh := by
  intro c f c' f' g d d' e hne h h' hd hd' he
  obtain ⟨rfl, rfl, -, -⟩ := twoMesh_across ⟨hne, g, h, h'⟩
  obtain ⟨hc, rfl, hd, he⟩ := two_cases h hd he
  obtain ⟨hc', -, hd', -⟩ := two_cases h' hd' he
  have key : ∀ c < 2, ∀ c' < 2, c ≠ c' → ∀ d ∈ twoMesh.cells[c]?, ∀ d' ∈ twoMesh.cells[c']?, ∀ e ∈ twoMesh.faces[crudeFace c 0]?,
      idet (ivec (e.nodes 0) (d.nodes 0)) (ivec (e.nodes 0) (e.nodes 1)) (ivec (e.nodes 0) (e.nodes 2)) *
      idet (ivec (e.nodes 0) (d'.nodes 0)) (ivec (e.nodes 0) (e.nodes 1)) (ivec (e.nodes 0) (e.nodes 2)) < 0 := by
    decide +kernel
  have := key c hc c' hc' hne d hd d' hd' e he
  rw [vec_int, vec_int, vec_int, vec_int, det_int, det_int]
  exact_mod_cast this

/-- The interior face is horizontal. -/
theorem two_face {c : Nat} {e : SFace} (hc : c < 2) (he : twoMesh.faces[crudeFace c 0]? = some e) (om : Pt) :
    det om (vec (point twoVal twoMesh (e.nodes 0)) (point twoVal twoMesh (e.nodes 1)))
      (vec (point twoVal twoMesh (e.nodes 0)) (point twoVal twoMesh (e.nodes 2))) = 100 * om 2 ∧
    perm om (vec (point twoVal twoMesh (e.nodes 0)) (point twoVal twoMesh (e.nodes 1)))
      (vec (point twoVal twoMesh (e.nodes 0)) (point twoVal twoMesh (e.nodes 2))) = 100 * |om 2| := by
  have key : ∀ c < 2, ∀ e ∈ twoMesh.faces[crudeFace c 0]?, ∀ k, ivec (e.nodes 0) (e.nodes 1) k = (![10, 0, 0] : Fin 3 → ℤ) k ∧
      ivec (e.nodes 0) (e.nodes 2) k = (![0, 10, 0] : Fin 3 → ℤ) k := by decide +kernel
  have e1 : ivec (e.nodes 0) (e.nodes 1) = ![10, 0, 0] := funext fun k => (key c hc e he k).1
  have e2 : ivec (e.nodes 0) (e.nodes 2) = ![0, 10, 0] := funext fun k => (key c hc e he k).2
  rw [vec_int, vec_int, e1, e2]
  unfold det perm
  constructor
  · simp; ring
  · simp; ring

theorem upDown_two (a : Nat) : (upDown a 2 = 2 / 3 ∧ a = 0) ∨ (upDown a 2 = -2 / 3 ∧ a ≠ 0) := by
  unfold upDown
  by_cases h : a = 0
  · left; simp [h]
  · right; simp [h]

theorem two_inclined {nA : Nat} {dirs : Nat → Pt} (hd : ∀ a < nA, dirs a 2 ≠ 0) : Inclined (2 ^ (-53 : ℤ)) twoVal dirs nA twoMesh := by
  intro c f c' f' g e hne h h' he a ha
  have hmu := abs_pos.2 (hd a ha)
  obtain ⟨rfl, rfl, -, -⟩ := twoMesh_across ⟨hne, g, h, h'⟩
  obtain ⟨d, -, -, hd, -⟩ := id h
  obtain ⟨hc, rfl, hd, he⟩ := two_cases h hd he
  unfold Clear
  rw [(two_face hc he _).1, (two_face hc he _).2]
  rw [abs_mul, abs_of_pos (by norm_num : (0 : ℝ) < 100)]
  refine mul_lt_of_lt_one_left (by positivity) ?_
  norm_num

theorem upDown_inclined : Inclined (2 ^ (-53 : ℤ)) twoVal upDown 2 twoMesh := by
  refine two_inclined fun a _ => ?_
  rcases upDown_two a with ⟨e2, -⟩ | ⟨e2, -⟩ <;> rw [e2] <;> norm_num

theorem two_leaves {a c : Nat} (ha : a < 2) (h : Leaves twoVal twoMesh (upDown a) c 0) : a ≠ c := by
  obtain ⟨g, d, e, h1, hd, he, h2⟩ := h
  obtain ⟨hc, rfl, hd, he⟩ := two_cases h1 hd he
  rw [(two_face hc he _).1, vec_int, vec_int, vec_int, det_int] at h2
  have key : ∀ c < 2, ∀ d ∈ twoMesh.cells[c]?, ∀ e ∈ twoMesh.faces[crudeFace c 0]?,
      (c = 0 → 0 < idet (ivec (e.nodes 0) (d.nodes 0)) (ivec (e.nodes 0) (e.nodes 1)) (ivec (e.nodes 0) (e.nodes 2))) ∧
      (c ≠ 0 → idet (ivec (e.nodes 0) (d.nodes 0)) (ivec (e.nodes 0) (e.nodes 1)) (ivec (e.nodes 0) (e.nodes 2)) < 0) := by
    decide +kernel
  obtain ⟨k1, k2⟩ := key c hc d hd e he
  rintro rfl
  rcases upDown_two a with ⟨e2, e3⟩ | ⟨e2, e3⟩
  · have : (0 : ℝ) < idet (ivec (e.nodes 0) (d.nodes 0)) (ivec (e.nodes 0) (e.nodes 1)) (ivec (e.nodes 0) (e.nodes 2)) := by
      exact_mod_cast k1 e3
    rw [e2] at h2
    linarith
  · have : (idet (ivec (e.nodes 0) (d.nodes 0)) (ivec (e.nodes 0) (e.nodes 1)) (ivec (e.nodes 0) (e.nodes 2)) : ℝ) < 0 := by
      exact_mod_cast k2 e3
    rw [e2] at h2
    linarith

theorem two_noCycle : Spec.Acyclic twoVal upDown 2 twoMesh := by
  intro a ha c h
  have step : ∀ {c c'}, (∃ f f', Across twoMesh c f c' f' ∧ Leaves twoVal twoMesh (upDown a) c f) → c ≠ a ∧ c' = a := by
    rintro c c' ⟨f, f', h, hx⟩
    obtain ⟨rfl, rfl, h1, h2⟩ := twoMesh_across h
    have hne := h.1
    have := two_leaves ha hx
    omega
  have key : ∀ {c c'}, Relation.TransGen (fun c c' => ∃ f f', Across twoMesh c f c' f' ∧ Leaves twoVal twoMesh (upDown a) c f) c c' →
      c ≠ a ∧ c' = a := by
    intro c c' h
    induction h with
    | single h => exact step h
    | tail _ h ih => exact ⟨ih.1, (step h).2⟩
  exact (key h).1 (key h).2

/-- C87: two tetrahedra in double precision meet all conditions: on two ranks the set-up succeeds and the
source iteration returns. -/
example : ∃ (P : ParallelMesh) (T : Nat → Mesh) (D : Nat → Tables ℝ) (psi : Nat → Psi ℝ),
    Rounds (2 ^ (-53 : ℤ)) binary64 ∧ WellShaped (2 ^ (-53 : ℤ)) twoVal twoMesh ∧ Opposed twoVal twoMesh ∧
    Inclined (2 ^ (-53 : ℤ)) twoVal upDown 2 twoMesh ∧ Spec.Acyclic twoVal upDown 2 twoMesh ∧
    Created twoMesh [1, 0] 2 P ∧ Loaded twoVal P T ∧ Started (kernel53 2 upDown) twoVal P T D ∧
    Consistent (kernel53 2 upDown) twoVal twoMesh ∧ (kernel53 2 upDown).Iterated 2 T D 5 psi := by
  obtain ⟨P, H⟩ := created_of twoMesh_tets (by decide) (by decide) (pv := [1, 0]) (n := 2) rfl (by decide) (by decide)
  obtain ⟨T, L⟩ := load_succeeds twoVal H
  have hK := kernel53_computes 2 upDown
  obtain ⟨D, hD⟩ := rounded_started binary64_rounds H L hK two_shaped crude_material
  have hsort := rounded_sorted binary64_rounds twoMesh_tets hK two_shaped two_opposed upDown_inclined two_noCycle
  have s1 : ∀ r < 2, 2 * (T r).nCells < 2 ^ 64 := by
    intro r hr
    have hl := (create_cells H.create).1
    have hp : P.parts[r]? = some P.parts[r] := List.getElem?_eq_getElem (by omega)
    have h1 := (loaded_cells H L hp).1
    have h2 := part_le H hp
    have h3 := ((create_cells H.create).2 r _ hp).1
    have : twoMesh.numCells = 2 := rfl
    omega
  obtain ⟨psi, h⟩ := iterated_exists H (by decide) L hD hsort s1 ⟨3, 5, .tycho, false, fun _ c _ => c, fun _ _ _ _ _ => 3⟩
    (by decide) (by decide) rfl 5
  exact ⟨P, T, D, psi, binary64_rounds, two_shaped, two_opposed, upDown_inclined, two_noCycle, H, L, hD, hsort.consistent, h⟩

/-- C87: `delaunay_machine` applies to the two tetrahedra with the directions of the code. -/
example : ∃ (deck : Deck) (P : ParallelMesh) (T : Nat → Mesh) (D : Nat → Tables ℝ) (psi : Nat → Psi ℝ),
    0 < deck.dirs.length ∧ Created twoMesh [0, 1] 2 P ∧ Loaded twoVal P T ∧
    Started (kernel53 deck.dirs.length (deckDir deck)) twoVal P T D ∧
    (kernel53 deck.dirs.length (deckDir deck)).Iterated 2 T D 3 psi := by
  obtain ⟨Q, hQ⟩ := (Verif.Quadrature.orders 4).2 (by decide)
  let deck : Deck := ⟨1, Q, 3, 1, 5, 2⟩
  have hs : Verif.Program.Spec.Sensible twoVal deck twoMesh := two_sensible (deck := deck) hQ (by norm_num [deck]) (by norm_num [deck])
  have hlen : deck.dirs.length = 32 := by
    have := Verif.Quadrature.count hQ
    show Q.length = 32
    omega
  obtain ⟨P, H⟩ := created_of twoMesh_tets (by decide) (by decide) (pv := [0, 1]) (n := 2) rfl (by decide) (by decide)
  obtain ⟨T, L⟩ := load_succeeds twoVal H
  have s1 : ∀ r < 2, deck.dirs.length * (T r).nCells < 2 ^ 64 := by
    intro r hr
    have hl := (create_cells H.create).1
    have hp : P.parts[r]? = some P.parts[r] := List.getElem?_eq_getElem (by omega)
    have h1 := (loaded_cells H L hp).1
    have h2 := part_le H hp
    have h3 := ((create_cells H.create).2 r _ hp).1
    have : twoMesh.numCells = 2 := rfl
    rw [hlen]
    omega
  have hmu : ∀ a < deck.dirs.length, deckDir deck a 2 ≠ 0 := by
    intro a ha
    have hdir : deck.dirs[a]? = some deck.dirs[a] := List.getElem?_eq_getElem ha
    unfold deckDir Deck.omega
    rw [List.getElem?_map, hdir]
    exact (Verif.Quadrature.off_planes hQ deck.dirs[a] (List.getElem_mem ha)).2.2
  obtain ⟨D, hD, h⟩ := delaunay_machine binary64_rounds H (by decide) L two_fits hs two_delaunay (kernel53_computes _ _) two_shaped
    (two_inclined hmu) s1 ⟨3, 5, .tycho, false, fun _ c _ => c, fun _ _ _ _ _ => 3⟩ (by decide) (by decide) rfl
  obtain ⟨psi, hpsi⟩ := h 3
  exact ⟨deck, P, T, D, psi, by rw [hlen]; decide, H, L, hD, hpsi⟩

/-- The tetrahedron with vertices at the origin and on the axes. -/
noncomputable def corner : Fin 4 → Pt := ![![0, 0, 0], ![1, 0, 0], ![0, 1, 0], ![0, 0, 1]]

/-- C87: `rounded_accuracy` applies to the face of this tetrahedron opposite to its top, whatever the
direction. -/
example (om : Pt) : ∃ x, romega binary64 om (facePoints corner ![0, 1, 2]) corner = some x ∧ |x - -om 2| ≤ 2 ^ (-48 : ℤ) * size om := by
  have hc : Clear (2 ^ (-53 : ℤ)) 9 (vec (corner 0) (corner 3)) (vec (corner 0) (corner 1)) (vec (corner 0) (corner 2)) := by
    simp [Clear, det, perm, vec, corner]
    norm_num
  have hκ : size (rough (vec (corner 0) (corner 1)) (vec (corner 0) (corner 2))) ≤
      1 * size (cross (vec (corner 0) (corner 1)) (vec (corner 0) (corner 2))) := by
    simp [size, rough, cross, vec, corner]
  obtain ⟨x, h1, h2⟩ := rounded_accuracy binary64_rounds (p := corner) (f := 3) (t := ![0, 1, 2]) ⟨by decide, by decide⟩ hc om hκ
    (by norm_num) (n := ![0, 0, -1]) ⟨by simp, by
      intro i j hi hj
      fin_cases i <;> fin_cases j <;> simp_all [corner], by
      intro j hj
      fin_cases j <;> simp_all [corner]⟩
  refine ⟨x, h1, ?_⟩
  simp at h2
  rw [sub_neg_eq_add]
  refine h2.trans (mul_le_mul_of_nonneg_right (b := _) (c := 2 ^ (-48 : ℤ)) ?_ (size_nonneg om))
  norm_num

end Verif.Rounding
