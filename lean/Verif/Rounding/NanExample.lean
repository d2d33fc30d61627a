import Verif.Rounding.NanFlow
import Verif.Rounding.StopExample

/-!
# C107: two tetrahedra with a vertex at the centre of the hat

The mesh is `twoMesh` with the coordinates 30, 40 and 60 read as 50, 60 and 80: the face between the cells lies in the plane z = 60 and
the tip (50, 50, 50) of the lower cell, number 1, is the centre of the source of src/Problem.cc:55-86.
-/
set_option linter.unusedSectionVars false

namespace Verif.Rounding

open Verif.MeshFile Verif.TychoMesh Verif.Geometry Verif.Traverse Verif.Program
open Verif.Rounding.Spec
open Verif.Floating (Kernel Test Stop crude_material crudeFace crude_faceOf Started Sorted faceOf_unique started_exists)
open Verif.Floating.Spec (Position CellPoints FacePoints Dot Sigma BadSource)

/-! ### The mesh -/

def cenNat (b : Nat) : Nat := if b = 30 then 50 else if b = 40 then 60 else if b = 60 then 80 else b

def cenVal (b : Nat) : ℝ := cenNat b

def cpoint (i : Nat) : Fin 3 → ℤ := fun k => ((twoMesh.nodes[i]?).map fun nd => (cenNat (nd.coords k) : ℤ)).getD 0

def cvec (i j : Nat) : Fin 3 → ℤ := fun k => cpoint j k - cpoint i k

theorem point_cen (i : Nat) : point cenVal twoMesh i = fun k => (cpoint i k : ℝ) := by
  funext k
  unfold point cpoint cenVal
  cases twoMesh.nodes[i]? <;> simp

theorem vec_cen (i j : Nat) : vec (point cenVal twoMesh i) (point cenVal twoMesh j) = fun k => (cvec i j k : ℝ) := by
  funext k
  unfold vec cvec
  rw [point_cen, point_cen]
  push_cast
  rfl

theorem cen_shaped : WellShaped (2 ^ (-53 : ℤ)) cenVal twoMesh := by
  intro c f g d e h hd he
  obtain ⟨hc, rfl, hd, he⟩ := two_cases h hd he
  have key : ∀ c < 2, ∀ f, ∀ d ∈ twoMesh.cells[c]?, ∀ e ∈ twoMesh.faces[crudeFace c f]?,
      6000 ≤ |idet (cvec (e.nodes 0) (d.nodes f)) (cvec (e.nodes 0) (e.nodes 1)) (cvec (e.nodes 0) (e.nodes 2))| ∧
      ∀ k, |cvec (e.nodes 0) (d.nodes f) k| ≤ 30 ∧ |cvec (e.nodes 0) (e.nodes 1) k| ≤ 30 ∧ |cvec (e.nodes 0) (e.nodes 2) k| ≤ 30 := by
    decide +kernel
  obtain ⟨k1, k2⟩ := key c hc f d hd e he
  rw [vec_cen, vec_cen, vec_cen]
  refine clear_double (h := 30) (fun k => ?_) (fun k => ?_) (fun k => ?_) ?_ le_rfl
  · exact_mod_cast (k2 k).1
  · exact_mod_cast (k2 k).2.1
  · exact_mod_cast (k2 k).2.2
  · rw [det_int]
    have : (6000 : ℝ) ≤ |((idet (cvec (e.nodes 0) (d.nodes f)) (cvec (e.nodes 0) (e.nodes 1)) (cvec (e.nodes 0) (e.nodes 2)) : ℤ) : ℝ)| := by
      exact_mod_cast k1
    norm_num
    linarith

theorem cen_opposed : Opposed cenVal twoMesh := by
  intro c f c' f' g d d' e hne h h' hd hd' he
  obtain ⟨rfl, rfl, -, -⟩ := twoMesh_across ⟨hne, g, h, h'⟩
  obtain ⟨hc, rfl, hd, he⟩ := two_cases h hd he
  obtain ⟨hc', -, hd', -⟩ := two_cases h' hd' he
  have key : ∀ c < 2, ∀ c' < 2, c ≠ c' → ∀ d ∈ twoMesh.cells[c]?, ∀ d' ∈ twoMesh.cells[c']?, ∀ e ∈ twoMesh.faces[crudeFace c 0]?,
      idet (cvec (e.nodes 0) (d.nodes 0)) (cvec (e.nodes 0) (e.nodes 1)) (cvec (e.nodes 0) (e.nodes 2)) *
      idet (cvec (e.nodes 0) (d'.nodes 0)) (cvec (e.nodes 0) (e.nodes 1)) (cvec (e.nodes 0) (e.nodes 2)) < 0 := by
    decide +kernel
  have := key c hc c' hc' hne d hd d' hd' e he
  rw [vec_cen, vec_cen, vec_cen, vec_cen, det_int, det_int]
  exact_mod_cast this

theorem cen_face {c : Nat} {e : SFace} (hc : c < 2) (he : twoMesh.faces[crudeFace c 0]? = some e) (om : Pt) :
    det om (vec (point cenVal twoMesh (e.nodes 0)) (point cenVal twoMesh (e.nodes 1)))
      (vec (point cenVal twoMesh (e.nodes 0)) (point cenVal twoMesh (e.nodes 2))) = 900 * om 2 ∧
    perm om (vec (point cenVal twoMesh (e.nodes 0)) (point cenVal twoMesh (e.nodes 1)))
      (vec (point cenVal twoMesh (e.nodes 0)) (point cenVal twoMesh (e.nodes 2))) = 900 * |om 2| := by
  have key : ∀ c < 2, ∀ e ∈ twoMesh.faces[crudeFace c 0]?, ∀ k, cvec (e.nodes 0) (e.nodes 1) k = (![30, 0, 0] : Fin 3 → ℤ) k ∧
      cvec (e.nodes 0) (e.nodes 2) k = (![0, 30, 0] : Fin 3 → ℤ) k := by decide +kernel
  have e1 : cvec (e.nodes 0) (e.nodes 1) = ![30, 0, 0] := funext fun k => (key c hc e he k).1
  have e2 : cvec (e.nodes 0) (e.nodes 2) = ![0, 30, 0] := funext fun k => (key c hc e he k).2
  rw [vec_cen, vec_cen, e1, e2]
  unfold det perm
  constructor
  · simp; ring
  · simp; ring

theorem oneDeck_dir {a : Nat} (ha : a < oneDeck.dirs.length) : deckDir oneDeck a 2 = 1 / 3 := by
  obtain rfl : a = 0 := by simpa [oneDeck] using ha
  simp [deckDir, Deck.omega, oneDeck]

theorem cen_inclined : Inclined (2 ^ (-53 : ℤ)) cenVal (deckDir oneDeck) oneDeck.dirs.length twoMesh := by
  intro c f c' f' g e hne h h' he a ha
  obtain ⟨rfl, rfl, -, -⟩ := twoMesh_across ⟨hne, g, h, h'⟩
  obtain ⟨d, -, -, hd, -⟩ := id h
  obtain ⟨hc, rfl, hd, he⟩ := two_cases h hd he
  unfold Clear
  rw [(cen_face hc he _).1, (cen_face hc he _).2, oneDeck_dir ha]
  rw [abs_mul, abs_of_pos (by norm_num : (0 : ℝ) < 900)]
  refine mul_lt_of_lt_one_left (by positivity) ?_
  norm_num

theorem cen_leaves {a c : Nat} (ha : a < oneDeck.dirs.length) (h : Leaves cenVal twoMesh (deckDir oneDeck a) c 0) : c ≠ 0 := by
  obtain ⟨g, d, e, h1, hd, he, h2⟩ := h
  obtain ⟨hc, rfl, hd, he⟩ := two_cases h1 hd he
  rw [(cen_face hc he _).1, vec_cen, vec_cen, vec_cen, det_int, oneDeck_dir ha] at h2
  have key : ∀ c < 2, ∀ d ∈ twoMesh.cells[c]?, ∀ e ∈ twoMesh.faces[crudeFace c 0]?,
      c = 0 → 0 < idet (cvec (e.nodes 0) (d.nodes 0)) (cvec (e.nodes 0) (e.nodes 1)) (cvec (e.nodes 0) (e.nodes 2)) := by
    decide +kernel
  rintro rfl
  have : (0 : ℝ) < idet (cvec (e.nodes 0) (d.nodes 0)) (cvec (e.nodes 0) (e.nodes 1)) (cvec (e.nodes 0) (e.nodes 2)) := by
    exact_mod_cast key 0 hc d hd e he rfl
  linarith

theorem cen_noCycle : Spec.Acyclic cenVal (deckDir oneDeck) oneDeck.dirs.length twoMesh := by
  intro a ha c h
  have step : ∀ {c c'}, (∃ f f', Across twoMesh c f c' f' ∧ Leaves cenVal twoMesh (deckDir oneDeck a) c f) → c ≠ 0 ∧ c' = 0 := by
    rintro c c' ⟨f, f', h, hx⟩
    obtain ⟨rfl, rfl, h1, h2⟩ := twoMesh_across h
    have hne := h.1
    have := cen_leaves ha hx
    omega
  have key : ∀ {c c'}, Relation.TransGen (fun c c' => ∃ f f', Across twoMesh c f c' f' ∧ Leaves cenVal twoMesh (deckDir oneDeck a) c f) c c' →
      c ≠ 0 ∧ c' = 0 := by
    intro c c' h
    induction h with
    | single h => exact step h
    | tail _ h ih => exact ⟨ih.1, (step h).2⟩
  exact (key h).1 (key h).2

noncomputable def nan64 : Kernel (Option ℝ) oneDeck.dirs.length oneDeck.nGroups := nanMachine binary64 oneDeck

noncomputable def cenCoord (b : Nat) : Option ℝ := some (cenVal b)

theorem nan64_sorted : Sorted nan64 cenCoord twoMesh :=
  sorted_some nan_omega nan_positive
    (rounded_sorted binary64_rounds twoMesh_tets geo_computes cen_shaped cen_opposed cen_inclined cen_noCycle)

/-- The source in vertex 0 of cell 1 is not a number. -/
theorem cen_bad : BadSource (· = none) nan64 cenCoord twoMesh 1 0 := by
  refine ⟨fun v k => cenCoord ((![![50, 50, 30], ![50, 50, 40], ![60, 50, 40], ![50, 60, 40]] : Fin 4 → Fin 3 → Nat) v k), some 2, some 0, 0,
    ⟨_, rfl, fun v => ?_⟩, ⟨_, rfl, .inr ⟨rfl, rfl, rfl⟩⟩, ?_⟩
  · fin_cases v <;> exact ⟨_, rfl, rfl⟩
  · refine (nhat_iff binary64_rounds (deckDir oneDeck 0) (fun k => cenVal ((![50, 50, 30] : Fin 3 → Nat) k)) 2 0).trans (if_pos fun k => ?_)
    fin_cases k <;> simp [cenVal, cenNat]

theorem cen_size {P : ParallelMesh} {T : Nat → Mesh} (H : Created twoMesh [1, 0] 2 P) (L : Loaded cenVal P T) :
    ∀ r < 2, oneDeck.dirs.length * (T r).nCells < 2 ^ 64 := by
  intro r hr
  have hl := (create_cells H.create).1
  have hp : P.parts[r]? = some P.parts[r] := List.getElem?_eq_getElem (by omega)
  have h1 := (loaded_cells H L hp).1
  have h2 := part_le H hp
  have h3 := ((create_cells H.create).2 r _ hp).1
  have : twoMesh.numCells = 2 := rfl
  rw [show oneDeck.dirs.length = 1 from rfl]
  omega

/-- Set up on two ranks. -/
theorem cen_setup : ∃ (P : ParallelMesh) (T : Nat → Mesh) (D : Nat → Verif.Floating.Tables (Option ℝ)),
    Created twoMesh [1, 0] 2 P ∧ Loaded cenVal P T ∧ Started nan64 cenCoord P T D ∧ ∀ r < 2, oneDeck.dirs.length * (T r).nCells < 2 ^ 64 := by
  obtain ⟨P, H⟩ := created_of twoMesh_tets (by decide) (by decide) (pv := [1, 0]) (n := 2) rfl (by decide) (by decide)
  obtain ⟨T, L⟩ := load_succeeds cenVal H
  obtain ⟨D, hD⟩ : ∃ D, Started nan64 cenCoord P T D := by
    refine started_exists H L crude_material ?_
    intro c f q p hq hp a ha
    obtain ⟨q, ⟨g, e, h1, h2, h3⟩, rfl⟩ := facePoints_some hq
    obtain ⟨p, ⟨d, h4, h5⟩, rfl⟩ := cellPoints_some hp
    rw [show nan64 = nanMachine binary64 oneDeck from rfl, nan_omega, geo_computes.omegaDotN]
    obtain rfl : q = pointsOf cenVal twoMesh e := funext fun j => position_point (h3 j)
    obtain rfl : p = fun v => point cenVal twoMesh (d.nodes v) := funext fun v => position_point (h5 v)
    dsimp only
    rw [rounded_omega binary64_rounds (f := f) (fun i hi => by
      obtain ⟨j, hj⟩ := others_on_face twoMesh_tets h1 h4 h2 hi
      exact ⟨j, by unfold pointsOf; rw [hj]⟩) (cen_shaped c f g d e h1 h4 h2)]
    exact ⟨_, rfl⟩
  exact ⟨P, T, D, H, L, hD, cen_size H L⟩

/-- C107: source iteration in double precision that ends after one sweep, below its limit, with an error that is not at most its
tolerance. -/
theorem nan_stops {tol : ℝ} (ht : tol < 1) {iterMax : Nat} (hN : 1 < iterMax) :
    ∃ (P : ParallelMesh) (T : Nat → Mesh) (D : Nat → Verif.Floating.Tables (Option ℝ)) (psi : Nat → Psi (Option ℝ)) (l : List (Option ℝ)),
      Created twoMesh [1, 0] 2 P ∧ Loaded cenVal P T ∧ Started nan64 cenCoord P T D ∧
      nan64.FixedPoint (nanTest binary64 tol) iterMax 2 T D psi l ∧ (nanTest binary64 tol).Ended iterMax l ∧
      l.length < iterMax ∧ ¬ ∃ y, l.headD (nanTest binary64 tol).one = some y ∧ y ≤ tol := by
  obtain ⟨P, T, D, H, L, hD, hs⟩ := cen_setup
  have hone : (nanTest binary64 tol).above (nanTest binary64 tol).one = true := by simp [nanTest, ht]
  obtain ⟨psi, hsw, -⟩ := Verif.Floating.sweep_returns H (by decide) L hD nan64_sorted hs
    (fun r => nan64.totalSource (D r) ((fun _ _ _ _ _ => nan64.zero) r)) (fun _ _ _ _ _ => nan64.zero)
    ⟨3, 5, .tycho, false, fun _ c _ => c, fun _ _ _ _ _ => some 3⟩ (by decide) (by decide) rfl
  have h := Verif.Floating.Kernel.FixedPoint.succ (K := nan64) (test := nanTest binary64 tol) (iterMax := iterMax) .zero (by simp; omega) hone hsw
  have hend : (nanTest binary64 tol).Ended iterMax [nan64.errorOf (nanTest binary64 tol) 2 T (fun _ _ _ _ _ => nan64.zero) psi] := by
    right
    obtain ⟨r, i, hi⟩ := isCell_exists H (by decide : 1 < twoMesh.numCells)
    obtain ⟨-, hr, hlt, -⟩ := isCell_lg H L hi
    have h1 := Verif.Floating.swept_bad H (by decide) L hD nan64_sorted.consistent hs nan_spreads (by simp [oneDeck] : 0 < oneDeck.dirs.length)
      cen_bad (psiS := fun _ _ _ _ => nan64.zero) (fun _ _ _ _ _ _ _ _ _ _ => rfl) hsw hi 0 (by simp [oneDeck]) 0
    exact nanTest_spreads.above _ (Verif.Floating.error_bad nan_spreads nanTest_spreads hr (by simp [oneDeck] : 0 < oneDeck.nGroups)
      (by simp [oneDeck] : 0 < oneDeck.dirs.length) hlt h1)
  obtain ⟨e, he, hb, -⟩ := Verif.Floating.fixedPoint_bad H (by decide) L hD nan64_sorted.consistent hs nan_spreads nanTest_spreads hone
    (by decide : 1 < twoMesh.numCells) (by simp [oneDeck] : 0 < oneDeck.dirs.length) (by simp [oneDeck]) cen_bad (by omega) h hend
  refine ⟨P, T, D, psi, _, H, L, hD, h, hend, hN, ?_⟩
  rw [he]
  rintro ⟨y, hy, -⟩
  rw [List.headD_cons, hb] at hy
  simp at hy

/-- The flow goes from cell 1 up into cell 0. -/
theorem cen_up : Across twoMesh 1 0 0 0 ∧ Leaves cenVal twoMesh (deckDir oneDeck 0) 1 0 := by
  refine ⟨⟨by decide, 0, crude_faceOf (c := 1) (by decide) 0, crude_faceOf (c := 0) (by decide) 0⟩, 0, _, _,
    crude_faceOf (c := 1) (by decide) 0, rfl, rfl, ?_⟩
  rw [(cen_face (c := 1) (by decide) rfl _).1, vec_cen, vec_cen, vec_cen, det_int, oneDeck_dir (by simp [oneDeck])]
  show 900 * (1 / 3) * ((idet (cvec 1 4) (cvec 1 2) (cvec 1 3) : ℤ) : ℝ) < 0
  rw [show idet (cvec 1 4) (cvec 1 2) (cvec 1 3) = -9000 from by decide +kernel]
  norm_num

/-- C107: `nan_fixedPoint` applies: the error and the fluxes of the cell with this vertex and of the one downwind, which does not have it,
are not numbers. -/
example : ∃ (P : ParallelMesh) (T : Nat → Mesh) (D : Nat → Verif.Floating.Tables (Option ℝ)) (psi : Nat → Psi (Option ℝ)) (l : List (Option ℝ)),
    Created twoMesh [1, 0] 2 P ∧ nan64.FixedPoint (nanTest binary64 (1 / 1000)) 100 2 T D psi l ∧ l = [none] ∧
    (∀ r i, IsCell P r i 1 → ∀ v, psi r 0 v 0 i = none) ∧ (∀ r i, IsCell P r i 0 → ∀ v, psi r 0 v 0 i = none) := by
  obtain ⟨P, T, D, psi, l, H, L, hD, h, hend, -, -⟩ := nan_stops (tol := 1 / 1000) (by norm_num) (iterMax := 100) (by norm_num)
  obtain ⟨h1, h2⟩ := nan_fixedPoint binary64_rounds H (by decide) L hD cen_shaped cen_opposed cen_inclined (cen_size H L) (c := 1) rfl (v := 0)
    (fun k => by rw [point_cen]; fin_cases k <;> simp [cpoint, twoMesh, cenNat]) (by simp [oneDeck]) (by simp [oneDeck]) (by norm_num) (by norm_num) h hend
  have h3 := h2 0 (by simp [oneDeck])
  exact ⟨P, T, D, psi, l, H, h, h1, fun r i hr => h3 1 .refl r i hr 0 (by simp [oneDeck]),
    fun r i hr => h3 0 (.single ⟨0, 0, cen_up⟩) r i hr 0 (by simp [oneDeck])⟩

/-- C107: `stops_within_partial` applies to the run of C99, all errors of which are numbers. -/
example : ∃ (T : Nat → Mesh) (D : Nat → Verif.Floating.Tables ℝ) (psi : Nat → Psi ℝ) (e : ℝ) (l : List ℝ),
    (machine64 oneDeck).FixedPoint (test64 (1 / 10 ^ 8)) 6 2 T D psi (e :: l) ∧ (test64 (1 / 10 ^ 8)).Ended 6 (e :: l) ∧ (e :: l).length < 6 ∧
    e ≤ 1 / 10 ^ 8 := by
  obtain ⟨p, sS, P, T, D, hs, Ds, hac, htr, t1, t2, t3, t4, H, L, hD, hsort, hom, hcells⟩ := one_machine
  have hsize : ∀ r < 2, oneDeck.dirs.length * (T r).nCells < 2 ^ 64 := by
    intro r hr
    have := hcells r hr
    show 1 * (T r).nCells < _
    omega
  obtain ⟨psi, e, l, h, he⟩ := one_ends hs Ds t1 t2 t3 t4 H L hD hsort hom hsize
  have key : ∀ {psi l}, (machine64 oneDeck).FixedPoint (test64 (1 / 10 ^ 8)) 5 2 T D psi l →
      (machine64 oneDeck).FixedPoint (test64 (1 / 10 ^ 8)) 6 2 T D psi l ∧ l.length < 6 := by
    intro psi l h
    induction h with
    | zero => exact ⟨.zero, by simp⟩
    | succ _ h2 h3 h4 ih => exact ⟨.succ ih.1 (by omega) h3 h4, by simp only [List.length_cons]; omega⟩
  have hend : (test64 (1 / 10 ^ 8)).Ended 6 (e :: l) := .inr he
  exact ⟨T, D, psi, e, l, (key h).1, hend, (key h).2,
    Verif.Floating.stops_within_partial (bad := fun _ => False) (within := (· ≤ 1 / 10 ^ 8)) (fun x hx _ => by
      by_contra hh
      rw [((test64_tests _).above x).2 (not_le.1 hh)] at hx
      exact absurd hx (by decide)) (key h).1 hend (key h).2 (fun h => h)⟩

/-- C107: on the same mesh `SweeperPBJSI` with a limit of 10 makes nine iterations and `SweeperPBJOuter` nine of one sweep. -/
example : ∃ (P : ParallelMesh) (T : Nat → Mesh) (D : Nat → Verif.Floating.Tables (Option ℝ)) (fluxes : List (Nat → Psi (Option ℝ)))
    (runs : List (List (Nat → Psi (Option ℝ)))) (x y : Nat → Psi (Option ℝ)), Created twoMesh [1, 0] 2 P ∧
    nan64.Blocks (nanStop binary64 (1 / 1000)) 10 2 T D fluxes x ∧ fluxes.length = 9 ∧
    nan64.Outer (nanTest binary64 (1 / 1000)) 100 (nanStop binary64 (1 / 1000)) 10 2 T D runs y ∧ runs.map List.length = List.replicate 9 1 := by
  obtain ⟨P, T, D, H, L, hD, hs⟩ := cen_setup
  have hone : (nanTest binary64 (1 / 1000)).above (nanTest binary64 (1 / 1000)).one = true := by norm_num [nanTest]
  obtain ⟨fluxes, x, h⟩ := Verif.Floating.blocks_returns H (by decide) L hD nan64_sorted hs (nanStop binary64 (1 / 1000)) 10
  obtain ⟨runs, y, h'⟩ := Verif.Floating.outer_returns H (by decide) L hD nan64_sorted hs (nanTest binary64 (1 / 1000)) 100
    (nanStop binary64 (1 / 1000)) 10
  exact ⟨P, T, D, fluxes, runs, x, y, H, h,
    (Verif.Floating.blocks_bad H (by decide) L hD nan64_sorted.consistent hs nan_spreads nanStop_spreads
      (by decide : 1 < twoMesh.numCells) (by simp [oneDeck] : 0 < oneDeck.dirs.length) (by simp [oneDeck]) cen_bad h).1, h',
    Verif.Floating.outer_bad H (by decide) L hD nan64_sorted.consistent hs nan_spreads nanTest_spreads hone nanStop_spreads
      (by decide : 1 < twoMesh.numCells) (by simp [oneDeck] : 0 < oneDeck.dirs.length) (by simp [oneDeck]) cen_bad (by decide) h'⟩

end Verif.Rounding
