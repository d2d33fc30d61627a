import Verif.Program.Accuracy
import Verif.Program.JacobiExample
import Verif.Program.Cube

/-!
# A run whose printed error is bounded (C84)

A mesh of four tetrahedra around a vertex near the centre of the cube. It covers the ball where the flux is not zero, and the
bound of its error is below the size of the exact flux.
-/
set_option linter.unusedVariables false
set_option linter.unusedSimpArgs false
namespace Verif.Program

open Verif.MeshFile Verif.TychoMesh Verif.Geometry Verif.Geometry.Spec Verif.Program.Spec
open Verif.Traverse (Psi)
open Verif.Input (Str Settings readInput SweepType)
open Verif.Quadrature (quadrature)
open Verif.Schedule (AwayFrom)

/-- Four cells around node 4. -/
def starMesh : SerialMesh where
  numCells := 4
  numFaces := 10
  numNodes := 5
  cells := [⟨![0, 4, 5, 6], ![1, 2, 3, 4], 1⟩, ⟨![1, 4, 7, 8], ![0, 2, 3, 4], 2⟩, ⟨![2, 5, 7, 9], ![0, 1, 3, 4], 1⟩,
    ⟨![3, 6, 8, 9], ![0, 1, 2, 4], 1⟩]
  faces := [⟨![0, invalid], ![1, 2, 3]⟩, ⟨![1, invalid], ![0, 2, 3]⟩, ⟨![2, invalid], ![0, 1, 3]⟩, ⟨![3, invalid], ![0, 1, 2]⟩,
    ⟨![0, 1], ![2, 3, 4]⟩, ⟨![0, 2], ![1, 3, 4]⟩, ⟨![0, 3], ![1, 2, 4]⟩, ⟨![1, 2], ![0, 3, 4]⟩, ⟨![1, 3], ![0, 2, 4]⟩,
    ⟨![2, 3], ![0, 1, 4]⟩]
  nodes := [⟨![68, 68, 68]⟩, ⟨![68, 32, 32]⟩, ⟨![32, 68, 32]⟩, ⟨![32, 32, 68]⟩, ⟨![50, 51, 52]⟩]

def starAdj : List Cert.Pair :=
  [(0, 0, 1, 0), (0, 1, 2, 0), (0, 2, 3, 0), (1, 1, 2, 1), (1, 2, 3, 1), (2, 2, 3, 2),
    (1, 0, 0, 0), (2, 0, 0, 1), (3, 0, 0, 2), (2, 1, 1, 1), (3, 1, 1, 2), (3, 2, 2, 2)]

def starNodes : List Cert.IPt := [![68, 68, 68], ![68, 32, 32], ![32, 68, 32], ![32, 32, 68], ![50, 51, 52]]

def starI (c : Nat) (v : Fin 4) : Cert.IPt :=
  match starMesh.cells[c]? with
  | some d => starNodes.getD (d.nodes v) ![0, 0, 0]
  | none => ![0, 0, 0]

def starH (x : Cert.IPt) : ℤ := (x 0 - 50) ^ 2 + (x 1 - 50) ^ 2 + (x 2 - 50) ^ 2

theorem star_ok : starMesh.OK := by
  refine ⟨rfl, rfl, rfl, by decide, by decide, by decide, ?_, ?_, ?_⟩
  · decide +kernel
  · decide +kernel
  · decide +kernel

theorem star_tets : Tets starMesh :=
  Check.tets (sig := fun _ => ![3, 0, 1, 2]) ⟨rfl, rfl, rfl, by decide, by decide +kernel, by decide +kernel⟩

theorem star_adj : Cert.adjOK starMesh starAdj := Cert.adj_of (by decide +kernel)

theorem star_normals : Cert.normalsOK starMesh starI := by decide +kernel

theorem star_sides : Cert.sidesOK starI starAdj := by decide +kernel

theorem star_convex : Cert.convexOK starMesh starI starAdj starH := by decide +kernel

theorem star_cross : ∀ s0 s1 s2, Cert.crossOK starI starAdj (cubeBox s0 s1 s2) := by decide +kernel

theorem star_node : ∀ (i : Nat) (nd : SNode), starMesh.nodes[i]? = some nd → ∀ k, twoVal (nd.coords k) = (starNodes.getD i ![0, 0, 0] k : ℝ) := by
  intro i nd h k
  have hi : i < 5 := (List.getElem?_eq_some_iff.1 h).1
  unfold twoVal
  interval_cases i <;> simp [starMesh] at h <;> subst h <;>
    (match k with
      | 0 => simp [starNodes]
      | 1 => simp [starNodes]
      | 2 => simp [starNodes])

theorem star_pts (c : Nat) (hc : c < starMesh.numCells) (v : Fin 4) (k : Fin 3) : pts twoVal starMesh c v k = starI c v k := by
  obtain ⟨d, hd⟩ : ∃ d, starMesh.cells[c]? = some d := ⟨_, List.getElem?_eq_getElem (by exact hc)⟩
  have hn := star_tets.toSound.cellNode c d hd v
  obtain ⟨nd, hnd⟩ : ∃ nd, starMesh.nodes[d.nodes v]? = some nd := ⟨_, List.getElem?_eq_getElem (by exact hn)⟩
  unfold pts starI
  rw [hd]
  simp only [Option.bind_some]
  rw [hnd]
  exact star_node _ _ hnd k

theorem star_scaled : Cert.Scaled twoVal starMesh starI 1 := ⟨one_pos, fun c hc v k => by rw [div_one]; exact star_pts c hc v k⟩

theorem star_fits : Fits twoVal starMesh := Cert.fits star_scaled star_tets star_adj star_normals star_sides

/-- Square of the distance from the centre of the cube. -/
theorem star_radius {c : Nat} (hc : c < starMesh.numCells) (v : Fin 4) : radius (pts twoVal starMesh c v) = √(starH (starI c v) : ℝ) := by
  unfold radius starH
  simp only [star_pts c hc]
  push_cast
  rfl

/-- Square of the distance of the centre of a cell, times 16. -/
def starC (c : Nat) : ℤ :=
  (∑ v, starI c v 0 - 200) ^ 2 + (∑ v, starI c v 1 - 200) ^ 2 + (∑ v, starI c v 2 - 200) ^ 2

theorem star_centre {c : Nat} (hc : c < starMesh.numCells) : radius (centroid twoVal starMesh c) = √((starC c : ℝ) / 16) := by
  unfold radius starC centroid
  simp only [star_pts c hc]
  push_cast
  congr 1
  ring

variable {deck : Deck} {p : Problem ℝ} {sS : Nat → ℝ}

theorem star_regular : Regular twoVal starMesh := by
  refine Cert.regular star_scaled star_tets star_adj star_convex (q := fun x => (x 0 - 50) ^ 2 + (x 1 - 50) ^ 2 + (x 2 - 50) ^ 2) ?_
  intro c hc v
  simp only [star_pts c hc]
  unfold starH
  push_cast
  rfl

theorem star_apart : ∀ c < starMesh.numCells, ∀ v w,
    (starI c w 0 - starI c v 0) ^ 2 + (starI c w 1 - starI c v 1) ^ 2 + (starI c w 2 - starI c v 2) ^ 2 ≤ 51 ^ 2 := by decide +kernel

theorem star_heights : ∀ c < starMesh.numCells, ∀ f : Fin 4, ∀ j, j ≠ f → 17 ^ 2 * Cert.dotI (Cert.outI (starI c) f) (Cert.outI (starI c) f) ≤
    4 * Cert.dotI (Cert.outI (starI c) f) (Cert.subI (starI c f) (starI c j)) ^ 2 := by decide +kernel

theorem star_inner : ∀ c < starMesh.numCells, ∀ f : Fin 4, f ≠ 3 → ∃ d ∈ starMesh.cells, ∃ k f' : Fin 4, ∃ k' : Fin 4, ∃ c' < starMesh.numCells,
    c ≠ c' ∧ ∃ g, Cert.onFace starMesh c f k = some g ∧ Cert.onFace starMesh c' f' k' = some g := by
  intro c hc f hf
  have key : ∀ c < starMesh.numCells, ∀ f : Fin 4, f ≠ 3 → ∃ k f' k' : Fin 4, ∃ c' < starMesh.numCells,
      c ≠ c' ∧ (Cert.onFace starMesh c f k).isSome ∧ Cert.onFace starMesh c' f' k' = Cert.onFace starMesh c f k := by decide +kernel
  obtain ⟨k, f', k', c', h1, h2, h3, h4⟩ := key c hc f hf
  obtain ⟨g, hg⟩ := Option.isSome_iff_exists.1 h3
  exact ⟨_, List.getElem_mem (l := starMesh.cells) (n := 0) (by decide), k, f', k', c', h1, h2, g, hg, h4.trans hg⟩

theorem onFace_face {m : SerialMesh} {c g : Nat} {f k : Fin 4} (h : Cert.onFace m c f k = some g) : FaceOf m c f g := by
  unfold Cert.onFace at h
  obtain ⟨d, hd, h⟩ := Option.bind_eq_some_iff.1 h
  obtain ⟨e, he, h⟩ := Option.bind_eq_some_iff.1 h
  split at h
  · rename_i hn
    simp only [Option.some.injEq] at h
    subst h
    exact ⟨d, e, k, hd, rfl, he, hn⟩
  · cases h

theorem star_shape (hQ : quadrature 2 = some deck.dirs) (Ds : Describes twoVal deck starMesh p sS) (hph : p.Physical starMesh)
    (h1 : deck.sigmaT1 = 100) (h2 : deck.sigmaT2 = 100) : Shape twoVal deck starMesh p 51 (17 / 2) 100 (Real.pi / 2) := by
  have hpi := Real.pi_pos
  refine ⟨?_, ?_, ?_, ?_, fun d hd => (order_two_weights hQ d hd).ge, by norm_num, by norm_num, by positivity⟩
  · intro c hc v w
    refine ⟨by norm_num, ?_⟩
    simp only [star_pts c hc]
    exact_mod_cast star_apart c hc v w
  · intro c hc f
    have hn := Cert.unit_normal star_scaled star_normals hc f
    have hj := Fin.succAbove_ne f 0
    have hv := Ds.area c hc f _ hn _ hj
    have hl := Cert.len_pos star_normals hc f
    have hA := (hph.area c hc f)
    have k1 := (star_normals c hc f).2 _ hj
    have k2 := star_heights c hc f _ hj
    set N := Cert.outI (starI c) f with hN
    set t := Cert.dotI N (Cert.subI (starI c f) (starI c (f.succAbove 0))) with ht
    have hsq : Cert.len N ^ 2 = (Cert.dotI N N : ℝ) := by
      unfold Cert.len Cert.dotI
      rw [Real.sq_sqrt (by positivity)]
      push_cast
      ring
    have hd := star_scaled.dot hc hc N f (f.succAbove 0)
    rw [div_one, ← ht] at hd
    have e : ∑ k, (N k : ℝ) / Cert.len N * (pts twoVal starMesh c (f.succAbove 0) k - pts twoVal starMesh c f k) = -(t : ℝ) / Cert.len N := by
      rw [← hd, Fin.sum_univ_three]
      ring
    rw [e] at hv
    have hη : (17 / 2 : ℝ) ≤ -(t : ℝ) / Cert.len N := by
      rw [le_div_iff₀ hl]
      have k1 : (t : ℝ) < 0 := by exact_mod_cast k1
      have k2 : (17 : ℝ) ^ 2 * Cert.dotI N N ≤ 4 * (t : ℝ) ^ 2 := by exact_mod_cast k2
      rw [← hsq] at k2
      nlinarith
    rw [hv]
    nlinarith [mul_le_mul_of_nonneg_left hη hA]
  · intro c hc f hno v hv
    have hf : f = 3 := by
      by_contra hf
      obtain ⟨-, -, k, f', k', c', hc', hne, g, e1, e2⟩ := star_inner c hc f hf
      exact hno c' f' ⟨hne, g, onFace_face e1, onFace_face e2⟩
    subst hf
    rw [star_radius hc]
    have key : ∀ c < starMesh.numCells, ∀ v : Fin 4, v ≠ 3 → 30 ^ 2 ≤ starH (starI c v) := by decide +kernel
    exact Real.le_sqrt_of_sq_le (by exact_mod_cast key c hc v hv)
  · intro c hc
    obtain ⟨d, hd⟩ : ∃ d, starMesh.cells[c]? = some d := ⟨_, List.getElem?_eq_getElem (by exact hc)⟩
    rcases Ds.sigma c d hd with ⟨-, e, -⟩ | ⟨-, e, -⟩
    · rw [e, h1]
    · rw [e, h2]

theorem star_between (Ds : Describes twoVal deck starMesh p sS) (h1 : deck.sigmaT1 = 100) (h2 : deck.sigmaT2 = 100) :
    Between p starMesh 324000 453600 := by
  have hs : ∀ c < starMesh.numCells, p.sigmaT c = 100 := by
    intro c hc
    obtain ⟨d, hd⟩ : ∃ d, starMesh.cells[c]? = some d := ⟨_, List.getElem?_eq_getElem (by exact hc)⟩
    rcases Ds.sigma c d hd with ⟨-, e, -⟩ | ⟨-, e, -⟩
    · rw [e, h1]
    · rw [e, h2]
  have hv : ∀ c < starMesh.numCells, p.volume c = (|Cert.detI (starI c)| : ℝ) / 6 := by
    intro c hc
    rw [Ds.volume c hc, Matrix.det_fin_three]
    simp only [Matrix.of_apply, star_pts c hc]
    congr 2
    unfold Cert.detI Cert.dotI Cert.subI Cert.crossI
    simp
    ring
  have key : ∀ c < starMesh.numCells, 19440 ≤ |Cert.detI (starI c)| ∧ |Cert.detI (starI c)| ≤ 27216 := by decide +kernel
  refine ⟨by norm_num, fun c hc => ?_, fun c hc => ?_⟩
  · rw [hs c hc, hv c hc]
    have : (19440 : ℝ) ≤ |(Cert.detI (starI c) : ℝ)| := by exact_mod_cast (key c hc).1
    linarith
  · rw [hs c hc, hv c hc]
    have : |(Cert.detI (starI c) : ℝ)| ≤ 27216 := by exact_mod_cast (key c hc).2
    linarith

theorem star_centres {c : Nat} (hc : c < starMesh.numCells) :
    18 / 25 ≤ exact (centroid twoVal starMesh c) ∧ exact (centroid twoVal starMesh c) ≤ 19 / 25 := by
  have key : ∀ c < starMesh.numCells, 869 ≤ starC c ∧ starC c ≤ 1085 := by decide +kernel
  obtain ⟨k1, k2⟩ := key c hc
  have k1 : (869 : ℝ) ≤ starC c := by exact_mod_cast k1
  have k2 : (starC c : ℝ) ≤ 1085 := by exact_mod_cast k2
  have r1 : (73 / 10 : ℝ) ≤ radius (centroid twoVal starMesh c) := by
    rw [star_centre hc]
    refine Real.le_sqrt_of_sq_le ?_
    linarith
  have r2 : radius (centroid twoVal starMesh c) ≤ 83 / 10 := by
    rw [star_centre hc]
    refine Real.sqrt_le_iff.2 ⟨by norm_num, ?_⟩
    linarith
  rw [exact_in (by linarith)]
  constructor <;> linarith

theorem star_means {c : Nat} (hc : c < starMesh.numCells) :
    23 / 100 ≤ (∑ v, exact (pts twoVal starMesh c v)) / 4 ∧ (∑ v, exact (pts twoVal starMesh c v)) / 4 ≤ 1 / 4 := by
  have key : ∀ c < starMesh.numCells, ∀ v : Fin 4, v ≠ 3 → 30 ^ 2 ≤ starH (starI c v) := by decide +kernel
  have far : ∀ v, v ≠ 3 → exact (pts twoVal starMesh c v) = 0 := by
    intro v hv
    refine exact_out ?_
    rw [star_radius hc]
    exact Real.le_sqrt_of_sq_le (by exact_mod_cast key c hc v hv)
  have k3 : ∀ c < starMesh.numCells, starH (starI c 3) = 5 := by decide +kernel
  have r3 : radius (pts twoVal starMesh c 3) ≤ 12 / 5 := by
    rw [star_radius hc, k3 c hc]
    refine Real.sqrt_le_iff.2 ⟨by norm_num, ?_⟩
    norm_num
  have hr := radius_nonneg (pts twoVal starMesh c 3)
  rw [Fin.sum_univ_four, far 0 (by decide), far 1 (by decide), far 2 (by decide), exact_in (by linarith)]
  constructor <;> linarith

theorem star_height : 18 / 25 ≤ height twoVal starMesh := by
  unfold height
  refine Real.le_sqrt_of_sq_le ?_
  rw [le_div_iff₀ (by norm_num [starMesh])]
  have : ∑ c ∈ Finset.range starMesh.numCells, ((18 : ℝ) / 25) ^ 2 ≤ ∑ c ∈ Finset.range starMesh.numCells, exact (centroid twoVal starMesh c) ^ 2 := by
    refine Finset.sum_le_sum fun c hc => ?_
    have := (star_centres (Finset.mem_range.1 hc)).1
    gcongr
  rw [Finset.sum_const, Finset.card_range, nsmul_eq_mul] at this
  linarith

theorem star_misfit : misfit twoVal starMesh ≤ 53 / 100 := by
  unfold misfit
  refine Real.sqrt_le_iff.2 ⟨by norm_num, ?_⟩
  rw [div_le_iff₀ (by norm_num [starMesh])]
  have : ∑ c ∈ Finset.range starMesh.numCells, ((∑ v, exact (pts twoVal starMesh c v)) / 4 - exact (centroid twoVal starMesh c)) ^ 2 ≤
      ∑ c ∈ Finset.range starMesh.numCells, ((53 : ℝ) / 100) ^ 2 := by
    refine Finset.sum_le_sum fun c hc => ?_
    have h1 := star_centres (Finset.mem_range.1 hc)
    have h2 := star_means (Finset.mem_range.1 hc)
    exact sq_le_sq' (by linarith) (by linarith)
  rw [Finset.sum_const, Finset.card_range, nsmul_eq_mul] at this
  linarith

theorem star_accuracy (hQ : quadrature 2 = some deck.dirs) (h1 : deck.sigmaS1 = 50) (h2 : deck.sigmaS2 = 0) :
    accuracy twoVal deck starMesh 51 (17 / 2) 10000 100 (Real.pi / 2) (3 / 4) 324000 453600 ≤ 3 / 5 := by
  obtain ⟨hlen, hW⟩ := two_weights hQ
  have hpi := Real.pi_pos
  unfold accuracy
  have hK : √(weights deck * 453600 / (deck.dirs.length * (Real.pi / 2) * 324000)) / (100 * (1 - 3 / 4)) ≤ 1 / 20 := by
    rw [hW, hlen, div_le_iff₀ (by norm_num)]
    refine Real.sqrt_le_iff.2 ⟨by norm_num, ?_⟩
    rw [div_le_iff₀ (by positivity)]
    push_cast
    nlinarith
  have hT : truncation deck 51 (17 / 2) 10000 (roughness twoVal starMesh 10000) ≤ 13 / 10 := by
    unfold truncation
    rw [h1, h2]
    have hb := roughness_nonneg twoVal starMesh 10000
    have hb1 := roughness_le_one twoVal starMesh 10000
    rw [max_eq_left (by norm_num : (0 : ℝ) ≤ 50)]
    refine Real.sqrt_le_iff.2 ⟨by norm_num, ?_⟩
    norm_num
    nlinarith
  have hT0 : 0 ≤ truncation deck 51 (17 / 2) 10000 (roughness twoVal starMesh 10000) := Real.sqrt_nonneg _
  have := mul_le_mul hK hT hT0 (by norm_num)
  have := star_misfit
  linarith

/-! ### The run -/

def starDeck : Str :=
  ("snOrder 2\niterMax 100\nerrMax 0.5\nmaxCellsPerStep 3\nintraAngleP 3\ninterAngleP 1\n"
    ++ "nGroups 2\nsigmaT1 100.0\nsigmaS1 50.0\nsigmaT2 100.0\nsigmaS2 0.0\nOutputFile true\n"
    ++ "OutputFilename star.psi\nSourceIteration false\nDD_IterMax 100\nDD_ErrMax 0.5\n"
    ++ "MPIType TychoTwoSided\nSweepType TraverseGraph\nGaussElim CramerGlu\n").toList

def starSettings : Settings Str :=
  ⟨2, 100, "0.5".toList, 3, 3, 1, 2, "100.0".toList, "50.0".toList, "100.0".toList, "0.0".toList, true, "star.psi".toList, 100,
    "0.5".toList, false, .tychoTwoSided, .traverseGraph, .cramerGlu⟩

def starTexts (name : Str) : Option Str := if name = "star".toList then some starDeck else none

theorem star_deck_read : (readInput some starTexts .original "star".toList).toOption = some starSettings := by decide +kernel

noncomputable def starNumber (w : Str) : ℝ :=
  if w = "100.0".toList then 100 else if w = "50.0".toList then 50 else if w = "0.5".toList then 1 / 2 else 0

theorem star_numbers : starNumber "100.0".toList = 100 ∧ starNumber "50.0".toList = 50 ∧ starNumber "0.0".toList = 0 := by
  unfold starNumber
  refine ⟨if_pos rfl, ?_, ?_⟩
  · rw [if_neg (by decide), if_pos rfl]
  · rw [if_neg (by decide), if_neg (by decide), if_neg (by decide)]

noncomputable def starWorld (g : List UInt8) : World :=
  ⟨twoVal, fun x => if x = 0 then 0 else 1, fun w => (some w).map starNumber, starTexts, fun _ => some g⟩

/-- C84: a complete run on the mesh of four cells, from the deck to the printed error, that meets the conditions of
`main_accuracy` with a bound below the size of the exact flux: it prints a number, and that is at most 5. -/
theorem star_main : ∃ (W : World) (deck : Deck) (p : Problem ℝ) (sS : Nat → ℝ) (g : List UInt8) (s : Settings ℝ) (e : ℝ)
    (out : Option (Str × Verif.PsiFile.File)), Good W.val starMesh.bytes starMesh deck p sS (3 / 4) ∧
    W.texts "star".toList = some starDeck ∧ readInput W.stod W.texts .original "star".toList = .ok s ∧ Asks s deck ∧
    W.files "star.pmesh".toList = some g ∧ Partitioned W.val starMesh.bytes 2 g ∧ Between p starMesh 324000 453600 ∧
    Shape W.val deck starMesh p 51 (17 / 2) 100 (Real.pi / 2) ∧
    accuracy W.val deck starMesh 51 (17 / 2) 10000 100 (Real.pi / 2) (3 / 4) 324000 453600 < height W.val starMesh ∧
    Ran W (machine 2 1 true) ["star.pmesh".toList, "star".toList] (.finished (some e) out) ∧ e ≤ 5 := by
  obtain ⟨Q, hQ⟩ := (Verif.Quadrature.orders 2).2 (by decide)
  let deck : Deck := ⟨2, Q, 100, 50, 100, 0⟩
  have hs : Sensible twoVal deck starMesh := by
    refine quadrature_sensible hQ (by decide) ?_ (by norm_num [deck]) (by norm_num [deck])
    intro c hc v
    rw [star_radius hc]
    have key : ∀ c < starMesh.numCells, ∀ v, 0 < starH (starI c v) := by decide +kernel
    exact (Real.sqrt_pos.2 (by exact_mod_cast key c hc v)).ne'
  have hlen : deck.dirs.length = 8 := by
    have := Verif.Quadrature.count hQ
    show Q.length = 8
    omega
  obtain ⟨p, sS, Ds⟩ := describes_exists star_tets star_fits hs
  have hph := describes_physical star_tets star_fits hs Ds
  have htr : p.Transversal starMesh := Cert.transversal star_scaled star_tets star_adj star_normals Ds fun d hd => by
    obtain ⟨s0, s1, s2, h⟩ := cube_dirs hQ hd
    exact ⟨_, _, h, star_cross s0 s1 s2⟩
  have hr : readSerial starMesh.bytes = some starMesh := by
    obtain ⟨f, h1, h2⟩ := serial_roundtrip star_ok
    rw [star_ok.write, Option.some.injEq] at h1
    subst h1
    simpa using h2 []
  have hsm : Small deck starMesh := ⟨by decide, by decide, by decide, by rw [hlen]; decide⟩
  obtain ⟨sX, hX⟩ := sort_exists (Verif.Partition.Centroid.x (K := ℝ))
  obtain ⟨sY, hY⟩ := sort_exists (Verif.Partition.Centroid.y (K := ℝ))
  obtain ⟨q1, -⟩ := partition_succeeds (val := twoVal) hr star_tets hsm
  obtain ⟨g, hg⟩ := q1 sX sY 1 2 hX hY (by decide) (by decide) (by decide)
  have hP : Partitioned twoVal starMesh.bytes 2 g := .columns (nX := 1) (nY := 2) hX hY (by decide) (by decide) hg
  have G : Good twoVal starMesh.bytes starMesh deck p sS (3 / 4) := by
    refine ⟨hr, star_tets, star_fits, hs, hsm, Ds, regular_acyclic star_tets star_fits star_regular Ds, htr, ?_, by norm_num, Nat.two_pos,
      by rw [hlen]; show 8 * 4 * 2 < 2 ^ 31; decide, by rw [hlen]; show 64 + 8 * (4 * (8 * 4 * 2)) ≤ 2 ^ 63; decide⟩
    exact quadrature_subcritical (deck := deck) hQ (c := 1 / 2) (by norm_num) (by norm_num) (by norm_num [deck]) (by norm_num [deck])
      (by norm_num [deck]) (by norm_num [deck]) (by norm_num [deck]) (by norm_num [deck])
  let W := starWorld g
  obtain ⟨v1, v2, v3⟩ := star_numbers
  have r1 : readInput W.stod W.texts .original "star".toList = .ok (mapSettings starNumber starSettings) :=
    readInput_map starNumber some starTexts .original _ (ok_of_toOption star_deck_read)
  have hd : Asks (mapSettings starNumber starSettings) deck := ⟨hQ, rfl, v1.symm, v2.symm, v1.symm, v3.symm⟩
  have f1 : W.files "star.pmesh".toList = some g := rfl
  have Sh := star_shape hQ Ds hph (rfl : deck.sigmaT1 = 100) (rfl : deck.sigmaT2 = 100)
  have Bt := star_between Ds (rfl : deck.sigmaT1 = 100) (rfl : deck.sigmaT2 = 100)
  have hA := star_accuracy (deck := deck) hQ rfl rfl
  have hH := star_height
  obtain ⟨e, out, h1⟩ := main_finishes (W := W) (C := machine 2 1 true) G r1 hd f1 hP (by decide) (by decide) rfl
    (.inl ⟨rfl, rfl, by decide⟩) []
  obtain ⟨psi, -, -, h2⟩ := main_accuracy (W := W) (C := machine 2 1 true) (ρ := 10000) G r1 hd f1 hP (by decide) (by decide) (by decide)
    Bt Sh (by norm_num) (fun h => by rcases h with h | h <;> cases h) h1
  have hlt : accuracy twoVal deck starMesh 51 (17 / 2) 10000 100 (Real.pi / 2) (3 / 4) 324000 453600 < height twoVal starMesh := by linarith
  obtain ⟨x, rfl, hx⟩ := h2 hlt
  refine ⟨W, deck, p, sS, g, _, x, out, G, rfl, r1, hd, f1, hP, Bt, Sh, hlt, h1, hx.trans ?_⟩
  have h5 : accuracy twoVal deck starMesh 51 (17 / 2) 10000 100 (Real.pi / 2) (3 / 4) 324000 453600 ≤ 5 * (height twoVal starMesh -
      accuracy twoVal deck starMesh 51 (17 / 2) 10000 100 (Real.pi / 2) (3 / 4) 324000 453600) := by linarith
  exact (div_le_iff₀ (sub_pos.2 hlt)).2 h5

end Verif.Program
