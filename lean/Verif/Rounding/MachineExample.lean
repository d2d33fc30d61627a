import Verif.Rounding.Hat
import Verif.Rounding.Example
import Verif.Program.JacobiExample

/-!
# Examples for C97 and C98: two tetrahedra in double precision
-/
set_option linter.unusedSectionVars false

namespace Verif.Rounding

open Verif.MeshFile Verif.TychoMesh Verif.Geometry Verif.Traverse Verif.Program Verif.Program.Spec
open Verif.Rounding.Spec hiding Acyclic
open Verif.Floating (Kernel crudeFace crude_faceOf crude_material)
open Verif.Floating.Spec (Holds)

/-- All that one source iteration computes, over the doubles. -/
noncomputable def machine64 (deck : Deck) : Kernel ℝ deck.dirs.length deck.nGroups where
  zero := 0
  volume := rvolume binary64
  area := rarea binary64
  omegaDotN a := romega binary64 (deckDir deck a)
  positive x := open Classical in decide (0 < x)
  sigmaT1 := deck.sigmaT1
  sigmaS1 := deck.sigmaS1
  sigmaT2 := deck.sigmaT2
  sigmaS2 := deck.sigmaS2
  source a := rhat binary64 (deckDir deck a)
  solve V A dots σ c2f inc q v g := ((rsolve binary64 V A dots σ c2f (fun k f => inc k f g) (fun v => q v g)).getD 0) v
  toPhi := rphi binary64 (deckWt deck)
  total := rtotal binary64

variable {deck : Deck} {p : Problem ℝ} {sS : Nat → ℝ}

theorem machine64_computes : Computes binary64 (deckDir deck) (machine64 deck) where
  volume := rfl
  area := rfl
  omegaDotN := rfl
  positive x := by simp [machine64]

theorem machine64_solves : Solves binary64 deck (machine64 deck) where
  zero := rfl
  sigmaT1 := rfl
  sigmaT2 := rfl
  solve V A dots σ c2f inc q g x h v := by
    show ((rsolve binary64 V A dots σ c2f (fun k f => inc k f g) (fun v => q v g)).getD 0) v = x v
    rw [h]
    rfl

theorem machine64_adds : Adds binary64 deck (machine64 deck) := ⟨rfl, rfl, rfl, rfl⟩

/-! ### Exact solutions -/

section
variable {m : SerialMesh} {pv : List Nat} {n : Nat} {P : ParallelMesh} {T : Nat → Mesh} {val : Nat → ℝ}

/-- Some sweep of a problem on the loaded parts. -/
theorem runOf_exists (p : Problem ℝ) (hsize : ∀ r < n, p.nAngles * (T r).nCells < 2 ^ 64) : ∃ R : SweepRun ℝ, RunOf p n T R := by
  let loc (r i : Nat) : Nat := ((T r).getLGCell i).getD 0
  refine ⟨{
    nRanks := n, nAngles := p.nAngles, nThreads := 1, maxCompute := 1, nGroups := p.nGroups, doComm := true, protocol := .tycho
    rendezvous := false, gauss := .original
    view := fun r => {
      adjCell := fun c f => toNone (((T r).getAdjCell c f).getD 0)
      adjRank := fun c f => toNone (((T r).getAdjRank c f).getD 0)
      side := fun c f => ((T r).getSide c f).getD 0
      neighborVrtx := fun c f k => ((T r).getNeighborVrtx c f k).getD 0
      cellToFaceVrtx := fun c f v => ((T r).getCellToFaceVrtx c f v).getD 0
      omegaDotN := fun a i => p.omegaDotN a (loc r i)
      cellVolume := fun i => p.volume (loc r i)
      faceArea := fun i => p.area (loc r i) }
    nCells := fun r => (T r).nCells
    lgSide := fun r s => ((T r).getLGSide s).getD 0
    glSide := fun r g => ((T r).getGLSide g).getD 0
    sideCell := fun r s => ((T r).getSideCell s).getD 0
    faceToCellVrtx := fun r c f k => ((T r).getFaceToCellVrtx c f k).getD 0
    sigmaT := fun r i => p.sigmaT (loc r i)
    source := fun r g v a i => p.source g v a (loc r i)
    priority := fun _ _ _ => 0, psi0 := fun _ _ _ _ _ => 0, bound0 := fun _ _ _ _ _ => 0, scratch := fun _ _ => 0 }, ?_⟩
  constructor
  · rfl
  · rfl
  · rfl
  · rfl
  · exact Nat.one_pos
  · exact hsize
  · intros; rfl
  · intro r _ c _ f a h; dsimp only; rw [h]; rfl
  · intro r _ c _ f a h; dsimp only; rw [h]; rfl
  · intro r _ c _ f a h; dsimp only; rw [h]; rfl
  · intro r _ s g h; dsimp only; rw [h]; rfl
  · intro r _ s g h; dsimp only; rw [h]; rfl
  · intro r _ s g h; dsimp only; rw [h]; rfl
  · intro r _ c _ f a v h; dsimp only; rw [h]; rfl
  · intro r _ c _ f a v h; dsimp only; rw [h]; rfl
  · intro r _ c _ f a v h; dsimp only; rw [h]; rfl
  all_goals
    intro r _ i c h
    have : loc r i = c := by show ((T r).getLGCell i).getD 0 = c; rw [h]; rfl
    dsimp only
    rw [this]
  · intros; rfl
  · intros; rfl

theorem scatter_solution (H : Created m pv n P) (hn : n < uintMax) (L : Loaded val P T) (hph : p.Physical m) (hM : p.Matched m)
    (hac : p.Acyclic m) (htr : p.Transversal m) (hsize : ∀ r < n, p.nAngles * (T r).nCells < 2 ^ 64) {Y : Scattering ℝ} {b : ℝ}
    (hb : p.Ratio m Y b) (hb1 : b < 1) : ∃ psi, p.Scatter m Y psi := by
  obtain ⟨R, hR⟩ := runOf_exists p hsize
  refine scatter_serial_exists (X := ⟨Y.wt, fun r i => Y.sigmaS (((T r).getLGCell i).getD 0), Y.pi⟩) H hn L hph hM hR
    ⟨fun _ _ => rfl, rfl, fun r _ i c h => ?_⟩ hac htr hb hb1
  dsimp only
  rw [h]
  rfl
end

/-! ### Two tetrahedra -/

def iperm (w a b : Fin 3 → ℤ) : ℤ :=
  |w 0| * (|a 1| * |b 2| + |a 2| * |b 1|) + |w 1| * (|a 2| * |b 0| + |a 0| * |b 2|) + |w 2| * (|a 0| * |b 1| + |a 1| * |b 0|)

theorem perm_int (w a b : Fin 3 → ℤ) : perm (fun k => (w k : ℝ)) (fun k => (a k : ℝ)) (fun k => (b k : ℝ)) = (iperm w a b : ℝ) := by
  unfold perm iperm
  push_cast
  rfl

/-- The squares of the size of a cross product and of the same without cancellation. -/
def icross2 (x y : Fin 3 → ℤ) : ℤ := (x 1 * y 2 - x 2 * y 1) ^ 2 + (x 2 * y 0 - x 0 * y 2) ^ 2 + (x 0 * y 1 - x 1 * y 0) ^ 2

def irough2 (x y : Fin 3 → ℤ) : ℤ :=
  (|x 1| * |y 2| + |x 2| * |y 1|) ^ 2 + (|x 2| * |y 0| + |x 0| * |y 2|) ^ 2 + (|x 0| * |y 1| + |x 1| * |y 0|) ^ 2

theorem cross_int (x y : Fin 3 → ℤ) : size (cross (fun k => (x k : ℝ)) (fun k => (y k : ℝ))) = √(icross2 x y : ℝ) := by
  unfold size icross2
  push_cast
  simp [cross]

theorem rough_int (x y : Fin 3 → ℤ) : size (rough (fun k => (x k : ℝ)) (fun k => (y k : ℝ))) = √(irough2 x y : ℝ) := by
  unfold size irough2
  push_cast
  simp [rough]

theorem two_stout : Stout 2 twoVal twoMesh where
  one := by norm_num
  faces c f g e h he := by
    obtain ⟨d, -, -, hd, -⟩ := id h
    obtain ⟨hc, rfl, hd, he⟩ := two_cases h hd he
    have key : ∀ c < 2, ∀ f, ∀ e ∈ twoMesh.faces[crudeFace c f]?, irough2 (ivec (e.nodes 0) (e.nodes 1)) (ivec (e.nodes 0) (e.nodes 2)) ≤
        4 * icross2 (ivec (e.nodes 0) (e.nodes 1)) (ivec (e.nodes 0) (e.nodes 2)) := by
      decide +kernel
    have k := key c hc f e he
    rw [vec_int, vec_int, cross_int, rough_int]
    have e1 : (2 : ℝ) = √4 := by rw [show (4 : ℝ) = 2 ^ 2 by norm_num]; simp
    rw [e1, ← Real.sqrt_mul (by norm_num)]
    refine Real.sqrt_le_sqrt ?_
    exact_mod_cast k
  cells c d hd := by
    have hc : c < 2 := (List.getElem?_eq_some_iff.1 hd).1
    have key : ∀ c < 2, ∀ d ∈ twoMesh.cells[c]?, iperm (ivec (d.nodes 0) (d.nodes 3)) (ivec (d.nodes 0) (d.nodes 1)) (ivec (d.nodes 0) (d.nodes 2)) ≤
        2 * |idet (ivec (d.nodes 0) (d.nodes 3)) (ivec (d.nodes 0) (d.nodes 1)) (ivec (d.nodes 0) (d.nodes 2))| := by
      decide +kernel
    have k := key c hc d hd
    rw [vec_int, vec_int, vec_int, det_int, perm_int]
    exact_mod_cast k

/-- No face is larger than 500. -/
theorem two_area (Ds : Describes twoVal deck twoMesh p sS) {c : Nat} (hc : c < 2) (f : Fin 4) : 0 ≤ p.area c f ∧ p.area c f ≤ 500 := by
  have h := crude_faceOf hc f
  obtain ⟨d, -, -, hd, -⟩ := id h
  have hg : ∀ c < 2, ∀ f, crudeFace c f < twoMesh.faces.length := by decide
  have he : twoMesh.faces[crudeFace c f]? = some _ := List.getElem?_eq_getElem (hg c hc f)
  rw [area_eq twoMesh_tets two_fits Ds h hd he]
  have key : ∀ c < 2, ∀ f, ∀ e ∈ twoMesh.faces[crudeFace c f]?, icross2 (ivec (e.nodes 0) (e.nodes 1)) (ivec (e.nodes 0) (e.nodes 2)) ≤ 1000 ^ 2 := by
    decide +kernel
  have k := key c hc f _ he
  rw [vec_int, vec_int, cross_int]
  have : √((icross2 (ivec ((twoMesh.faces[crudeFace c f]'(hg c hc f)).nodes 0) ((twoMesh.faces[crudeFace c f]'(hg c hc f)).nodes 1))
      (ivec ((twoMesh.faces[crudeFace c f]'(hg c hc f)).nodes 0) ((twoMesh.faces[crudeFace c f]'(hg c hc f)).nodes 2)) : ℤ) : ℝ) ≤ 1000 := by
    rw [Real.sqrt_le_left (by norm_num)]
    exact_mod_cast k
  have h0 := Real.sqrt_nonneg ((icross2 (ivec ((twoMesh.faces[crudeFace c f]'(hg c hc f)).nodes 0) ((twoMesh.faces[crudeFace c f]'(hg c hc f)).nodes 1))
      (ivec ((twoMesh.faces[crudeFace c f]'(hg c hc f)).nodes 0) ((twoMesh.faces[crudeFace c f]'(hg c hc f)).nodes 2)) : ℤ) : ℝ)
  constructor <;> linarith

theorem two_apart : Apart (2 ^ (-53 : ℤ)) twoVal twoMesh := by
  have hr : ∀ c < 2, ∀ v, 0 < radius (pts twoVal twoMesh c v) ∧ radius (pts twoVal twoMesh c v) ≤ 20 := by
    intro c hc v
    unfold radius
    rw [Real.sqrt_pos, Real.sqrt_le_left (by norm_num)]
    interval_cases c
    · rw [two_pts0]; fin_cases v <;> simp <;> norm_num
    · rw [two_pts1]; fin_cases v <;> simp <;> norm_num
  constructor
  · intro c hc v
    exact (hr c hc v).1.ne'
  · intro c hc v
    obtain ⟨h1, h2⟩ := hr c hc v
    rw [abs_of_neg (by linarith)]
    norm_num
    linarith

/-- What the examples share: mesh, settings and problem, two ranks, the tables that the code computes, and the
sweeps sorted. -/
theorem two_machine : ∃ (deck : Deck) (p : Problem ℝ) (sS : Nat → ℝ) (P : ParallelMesh) (T : Nat → Mesh) (D : Nat → Verif.Floating.Tables ℝ),
    Good twoVal twoMesh.bytes twoMesh deck p sS (3 / 4) ∧ deck.dirs.length = 8 ∧ deck.nGroups = 2 ∧
    p.sigmaT 0 = 1 ∧ sS 0 = 1 / 2 ∧ p.sigmaT 1 = 2 ∧ sS 1 = 0 ∧
    Created twoMesh [1, 0] 2 P ∧ Loaded twoVal P T ∧ Verif.Floating.Started (machine64 deck) twoVal P T D ∧
    Verif.Floating.Sorted (machine64 deck) twoVal twoMesh ∧ (∀ a < deck.dirs.length, size (deckDir deck a) ≤ 1.01) ∧
    (∀ r < 2, deck.dirs.length * (T r).nCells < 2 ^ 64) := by
  obtain ⟨deck, p, sS, g, g', G, hQ, q1, q2, q3, q4, q5, -⟩ := two_good
  obtain ⟨hlen, -⟩ := two_weights hQ
  obtain ⟨t1, t2, t3, t4⟩ := two_sigma G.describes q2 q3 q4 q5
  obtain ⟨P, H⟩ := created_of twoMesh_tets (by decide) (by decide) (pv := [1, 0]) (n := 2) rfl (by decide) (by decide)
  obtain ⟨T, L⟩ := load_succeeds twoVal H
  have hK := machine64_computes (deck := deck)
  obtain ⟨D, hD⟩ := rounded_started binary64_rounds H L hK two_shaped crude_material
  have hdir : ∀ a (ha : a < deck.dirs.length), deckDir deck a = ![deck.dirs[a].xi, deck.dirs[a].eta, deck.dirs[a].mu] := by
    intro a ha
    unfold deckDir Deck.omega
    rw [List.getElem?_map, List.getElem?_eq_getElem ha]
    rfl
  have hmu : ∀ a < deck.dirs.length, deckDir deck a 2 ≠ 0 := by
    intro a ha
    rw [hdir a ha]
    exact (Verif.Quadrature.off_planes hQ deck.dirs[a] (List.getElem_mem ha)).2.2
  have hsort := machine_sorted binary64_rounds twoMesh_tets two_fits G.describes G.acyclic hK two_shaped (two_inclined hmu)
  refine ⟨deck, p, sS, P, T, D, G, hlen, q1, t1, t2, t3, t4, H, L, hD, hsort, fun a ha => ?_, fun r hr => ?_⟩
  · rw [hdir a ha]
    unfold size
    have := G.sensible.dirs deck.dirs[a] (List.getElem_mem ha)
    simp only [Matrix.cons_val_zero, Matrix.cons_val_one, Matrix.cons_val]
    rw [this, Real.sqrt_one]
    norm_num
  · have hl := (create_cells H.create).1
    have hp : P.parts[r]? = some P.parts[r] := List.getElem?_eq_getElem (by omega)
    have h1 := (loaded_cells H L hp).1
    have h2 := part_le H hp
    have h3 := ((create_cells H.create).2 r _ hp).1
    have : twoMesh.numCells = 2 := rfl
    rw [hlen]
    omega

theorem two_thick (Ds : Describes twoVal deck twoMesh p sS) (h0 : p.sigmaT 0 = 1) (h1 : p.sigmaT 1 = 2) {c : Nat} (hc : c < 2) :
    (2 : ℝ) ^ (-53 : ℤ) * (2700 + 33 * 2) * ∑ f, p.area c f ≤ p.sigmaT c * p.volume c := by
  obtain ⟨v0, v1⟩ := two_volumes Ds
  have hs : ∑ f, p.area c f ≤ 2000 := by
    rw [Fin.sum_univ_four]
    linarith [(two_area Ds hc 0).2, (two_area Ds hc 1).2, (two_area Ds hc 2).2, (two_area Ds hc 3).2]
  have hV : 300 ≤ p.sigmaT c * p.volume c := by
    interval_cases c
    · rw [h0, v0]; norm_num
    · rw [h1, v1]; norm_num
  refine le_trans (mul_le_mul_of_nonneg_left hs (by positivity)) (le_trans ?_ hV)
  norm_num

theorem bounded (f : Psi ℝ) (nG nA nC : Nat) : ∃ X, ∀ g < nG, ∀ v, ∀ a < nA, ∀ c < nC, |f g v a c| ≤ X := by
  refine ⟨∑ g ∈ Finset.range nG, ∑ v, ∑ a ∈ Finset.range nA, ∑ c ∈ Finset.range nC, |f g v a c|, fun g hg v a ha c hc => ?_⟩
  have k1 := Finset.single_le_sum (f := fun c => |f g v a c|) (fun _ _ => abs_nonneg _) (Finset.mem_range.2 hc)
  have k2 := Finset.single_le_sum (f := fun a => ∑ c ∈ Finset.range nC, |f g v a c|)
    (fun _ _ => Finset.sum_nonneg fun _ _ => abs_nonneg _) (Finset.mem_range.2 ha)
  have k3 := Finset.single_le_sum (f := fun v => ∑ a ∈ Finset.range nA, ∑ c ∈ Finset.range nC, |f g v a c|)
    (fun _ _ => Finset.sum_nonneg fun _ _ => Finset.sum_nonneg fun _ _ => abs_nonneg _) (Finset.mem_univ v)
  have k4 := Finset.single_le_sum (f := fun g => ∑ v, ∑ a ∈ Finset.range nA, ∑ c ∈ Finset.range nC, |f g v a c|)
    (fun _ _ => Finset.sum_nonneg fun _ _ => Finset.sum_nonneg fun _ _ => Finset.sum_nonneg fun _ _ => abs_nonneg _) (Finset.mem_range.2 hg)
  exact k1.trans (k2.trans (k3.trans k4))

/-- C97: all conditions of `machine_sweep` hold in double precision for two tetrahedra on two ranks; there are a
sweep, the source it used and an exact solution to compare with, and the bound holds. -/
example : ∃ (deck : Deck) (p : Problem ℝ) (T : Nat → Mesh) (D : Nat → Verif.Floating.Tables ℝ) (source psi0 psi' : Nat → Psi ℝ)
    (srcS psiS psi : Psi ℝ) (X Q : ℝ), deck.dirs.length = 8 ∧ (machine64 deck).Swept 2 T D source psi0 psi' ∧
    Holds deck.dirs.length deck.nGroups 2 T source srcS ∧ Holds deck.dirs.length deck.nGroups 2 T psi' psiS ∧
    Problem.DG { p with source := srcS } twoMesh psi ∧
    ∀ a < deck.dirs.length, ∀ g < deck.nGroups,
      ∑ c ∈ Finset.range 2, p.sigmaT c * p.volume c *
          Verif.Source.cellM (fun v => psiS g v a c - psi g v a c) (fun v => psiS g v a c - psi g v a c) ≤
        80 * (2 ^ (-53 : ℤ) * (223 + 31 * 2)) ^ 2 * ∑ c ∈ Finset.range 2,
          (((∑ f, p.area c f) + p.sigmaT c * p.volume c) * X + p.volume c * Q) ^ 2 / (p.sigmaT c * p.volume c) := by
  obtain ⟨deck, p, sS, P, T, D, G, hlen, hG, t1, t2, t3, t4, H, L, hD, hsort, hom, hsize⟩ := two_machine
  have hσ : ∀ c < twoMesh.numCells, 0 < p.sigmaT c := by
    intro c hc
    have hc : c < 2 := hc
    interval_cases c
    · rw [t1]; norm_num
    · rw [t3]; norm_num
  -- the source is that of the problem
  let source : Nat → Psi ℝ := fun r g v a i => p.source g v a (((T r).getLGCell i).getD 0)
  obtain ⟨psi', hsw, -⟩ := Verif.Floating.sweep_returns H (by decide) L hD hsort hsize source (fun _ _ _ _ _ => 0)
    ⟨3, 5, .tycho, false, fun _ c _ => c, fun _ _ _ _ _ => 3⟩ (by decide) (by decide) rfl
  have hsrc : Holds deck.dirs.length deck.nGroups 2 T source p.source := by
    intro r hr i c h g hg v a ha
    show p.source g v a (((T r).getLGCell i).getD 0) = _
    rw [h]
    rfl
  obtain ⟨psiS, hS, hb⟩ := machine_sweep binary64_rounds (by norm_num) H (by decide) L hD two_fits G.describes machine64_computes
    machine64_solves two_shaped two_stout (by norm_num) hom hσ (fun c hc => two_thick G.describes t1 t3 hc) hsize hsw hsrc
  have hph := geometry_physical twoMesh_tets two_fits G.describes hσ
  obtain ⟨psi, hpsi⟩ := scatter_solution (Y := ⟨fun _ => 1, fun _ => 0, 1⟩) (b := 0) H (by decide) L hph
    (geometry_matched twoMesh_tets two_fits G.describes) G.acyclic G.transversal (by rw [G.describes.angles]; exact hsize)
    ⟨le_rfl, fun _ _ => zero_le_one, by
      rw [G.describes.angles, hlen]
      norm_num, fun c _ => by simp, fun c _ => by simp⟩ (by norm_num)
  have hdg : Problem.DG { p with source := p.source } twoMesh psi := by
    have : p.total (⟨fun _ => 1, fun _ => 0, 1⟩ : Scattering ℝ) psi = p.source := by
      funext g v a c
      simp [Problem.total]
    unfold Problem.Scatter at hpsi
    rwa [this] at hpsi
  obtain ⟨X, hX⟩ := bounded psiS deck.nGroups deck.dirs.length twoMesh.numCells
  obtain ⟨Q, hQ⟩ := bounded p.source deck.nGroups deck.dirs.length twoMesh.numCells
  exact ⟨deck, p, T, D, source, _, psi', p.source, psiS, psi, X, Q, hlen, hsw, hsrc, hS, hdg,
    hb X Q (fun g hg v a ha c hc => ⟨hX g hg v a ha c hc, hQ g hg v a ha c hc⟩) psi hdg⟩

/-- C98: all conditions of `machine_program` hold in double precision for two tetrahedra on two ranks: ten source
iterations return, the exact solution exists, and the bound holds. -/
example : ∃ (deck : Deck) (p : Problem ℝ) (sS : Nat → ℝ) (T : Nat → Mesh) (D : Nat → Verif.Floating.Tables ℝ) (psi' : Nat → Psi ℝ)
    (new psi : Psi ℝ) (X Q Δ : ℝ), deck.dirs.length = 8 ∧ (machine64 deck).Iterated 2 T D 10 psi' ∧
    Holds deck.dirs.length deck.nGroups 2 T psi' new ∧ p.Scatter twoMesh (scattering deck sS) psi ∧ (∃ c < 2, sS c ≠ 0) ∧
    ∀ g < deck.nGroups,
      (1 - 3 / 4) ^ 2 * ∑ a ∈ Finset.range deck.dirs.length, (scattering deck sS).wt a * ∑ c ∈ Finset.range 2,
          p.sigmaT c * p.volume c * Verif.Source.cellM (fun v => new g v a c - psi g v a c) (fun v => new g v a c - psi g v a c) ≤
        ∑ a ∈ Finset.range deck.dirs.length, (scattering deck sS).wt a * ∑ c ∈ Finset.range 2,
          (2 * p.volume c * (14 * 2 ^ (-53 : ℤ) * (0.04 + 2) + 2 ^ (-53 : ℤ) * (1.001 * (0.04 + 2)) +
              sS c / (4 * Real.pi) * ((6 * 2 ^ (-53 : ℤ) + ((1 + 2 ^ (-53 : ℤ)) ^ (deck.dirs.length + 1) - 1)) *
              ((∑ a ∈ Finset.range deck.dirs.length, (scattering deck sS).wt a) * X) + Δ)) ^ 2 / p.sigmaT c +
            160 * (2 ^ (-53 : ℤ) * (223 + 31 * 2) * (((∑ f, p.area c f) + p.sigmaT c * p.volume c) * X + p.volume c * Q)) ^ 2 /
              (p.sigmaT c * p.volume c)) := by
  obtain ⟨deck, p, sS, P, T, D, G, hlen, hG, t1, t2, t3, t4, H, L, hD, hsort, hom, hsize⟩ := two_machine
  have hcell : ∀ c < twoMesh.numCells, 0 < p.sigmaT c ∧ 0 ≤ sS c ∧ |p.sigmaT c - sS c| ≤ 2 := by
    intro c hc
    have hc : c < 2 := hc
    interval_cases c
    · rw [t1, t2]; norm_num
    · rw [t3, t4]; norm_num
  obtain ⟨psi', hit⟩ := Verif.Floating.iterated_exists H (by decide) L hD hsort hsize
    ⟨3, 5, .tycho, false, fun _ c _ => c, fun _ _ _ _ _ => 3⟩ (by decide) (by decide) rfl 10
  have hph := geometry_physical twoMesh_tets two_fits G.describes fun c hc => (hcell c hc).1
  have hrat := describes_ratio twoMesh_tets G.describes G.subcritical
  obtain ⟨psi, hpsi⟩ := scatter_solution H (by decide) L hph (geometry_matched twoMesh_tets two_fits G.describes) G.acyclic G.transversal
    (by rw [G.describes.angles]; exact hsize) hrat G.below
  obtain ⟨before, old, new, src, -, -, hnew, -, hbound⟩ := machine_program binary64_rounds (by norm_num) H (by decide) L hD two_fits
    G.describes machine64_computes machine64_solves machine64_adds rfl two_shaped two_stout two_apart (by norm_num) hom
    (fun c hc => (hcell c hc).1) (fun c hc => two_thick G.describes t1 t3 hc) (by rw [hlen]; norm_num) hrat G.below
    (fun c hc => (hcell c hc).2.1) (fun c hc => (hcell c hc).2.2) hsize hit hpsi
  obtain ⟨X1, hX1⟩ := bounded old deck.nGroups deck.dirs.length twoMesh.numCells
  obtain ⟨X2, hX2⟩ := bounded new deck.nGroups deck.dirs.length twoMesh.numCells
  obtain ⟨Q, hQ⟩ := bounded src deck.nGroups deck.dirs.length twoMesh.numCells
  obtain ⟨Δ, hΔ⟩ := bounded (fun g v _ c => ∑ a ∈ Finset.range deck.dirs.length, (old g v a c - new g v a c) * (scattering deck sS).wt a)
    deck.nGroups 1 twoMesh.numCells
  exact ⟨deck, p, sS, T, D, psi', new, psi, max X1 X2, Q, Δ, hlen, hit, hnew, hpsi, ⟨0, by norm_num, by rw [t2]; norm_num⟩,
    hbound (max X1 X2) Q Δ (fun g hg v a ha c hc => ⟨(hX1 g hg v a ha c hc).trans (le_max_left _ _),
      (hX2 g hg v a ha c hc).trans (le_max_right _ _), hQ g hg v a ha c hc⟩) fun g hg v c hc => hΔ g hg v 0 (by norm_num) c hc⟩

end Verif.Rounding
