import Verif.Program.Symmetry

/-!
# Example: the mesh of two cells turned and renumbered (C85)
-/
set_option linter.unusedVariables false
namespace Verif.Program

open Verif.MeshFile Verif.Geometry Verif.Geometry.Spec Verif.Program.Spec
open Verif.TychoMesh hiding exMesh_across
open Verif.Traverse (Psi)
open Verif.Input (Settings readInput Str)
open Verif.PsiFile (Contents)
open Verif.Schedule (AwayFrom)
open Verif.Partition (IsSort)

/-- The two tetrahedra after a quarter turn about the vertical axis, with cells, faces and nodes numbered backwards, the vertices of
both cells and the faces of one in another order. -/
def turnMesh : SerialMesh where
  numCells := 2
  numFaces := 7
  numNodes := 5
  cells := [⟨![2, 1, 6, 0], ![1, 2, 3, 0], 2⟩, ⟨![3, 4, 5, 6], ![1, 4, 3, 2], 1⟩]
  faces := [⟨![0, invalid], ![1, 2, 0]⟩, ⟨![0, invalid], ![1, 3, 0]⟩, ⟨![0, invalid], ![2, 3, 0]⟩,
    ⟨![1, invalid], ![2, 3, 4]⟩, ⟨![1, invalid], ![1, 3, 4]⟩, ⟨![1, invalid], ![1, 2, 4]⟩, ⟨![0, 1], ![1, 2, 3]⟩]
  nodes := [⟨![50, 50, 30]⟩, ⟨![40, 50, 40]⟩, ⟨![50, 60, 40]⟩, ⟨![50, 50, 40]⟩, ⟨![50, 50, 60]⟩]

theorem turn_tets : Tets turnMesh :=
  Check.tets (sig := fun c => if c = 0 then ![0, 1, 3, 2] else ![0, 3, 2, 1]) ⟨rfl, rfl, rfl, by decide, by decide +kernel, by decide +kernel⟩

theorem turn_ok : turnMesh.OK := by
  refine ⟨rfl, rfl, rfl, by decide, by decide, by decide, ?_, ?_, ?_⟩
  · decide
  · decide
  · decide

/-- The new numbers. -/
def turnNumbers : Numbering :=
  ⟨fun c => if c < 2 then 1 - c else c, fun f => if f < 7 then 6 - f else f, fun i => if i < 5 then 4 - i else i,
    fun c v => if c = 0 then v + 1 else Fin.rev v⟩

theorem back_injective (n : Nat) : Function.Injective fun i : Nat => if i < n + 1 then n - i else i := by
  intro a b h
  simp only at h
  split_ifs at h <;> omega

/-- The mesh is the one of `twoMesh` turned by a quarter. -/
theorem turn_same : SameMesh ![![0, -1, 0], ![1, 0, 0], ![0, 0, 1]] twoVal turnNumbers twoMesh turnMesh where
  count := rfl
  cellInj := back_injective 1
  faceInj := back_injective 6
  nodeInj := back_injective 4
  vertexInj c := by
    by_cases h : c = 0
    · intro v w e
      simp only [turnNumbers, if_pos h] at e
      exact add_right_cancel e
    · intro v w e
      simp only [turnNumbers, if_neg h] at e
      exact Fin.rev_injective e
  cells c d h := by
    have hc : c < 2 := (List.getElem?_eq_some_iff.1 h).1
    match c, hc with
    | 0, _ =>
      simp only [twoMesh, List.getElem?_cons_zero, Option.some.injEq] at h
      subst h
      exact ⟨_, rfl, rfl, by decide, Fin.revPerm, by decide⟩
    | 1, _ =>
      simp only [twoMesh, List.getElem?_cons_succ, List.getElem?_cons_zero, Option.some.injEq] at h
      subst h
      exact ⟨_, rfl, rfl, by decide, 1, by decide⟩
  faces g e h := by
    have hg : g < 7 := (List.getElem?_eq_some_iff.1 h).1
    interval_cases g <;> simp only [twoMesh, List.getElem?_cons_succ, List.getElem?_cons_zero, Option.some.injEq] at h <;>
      subst h <;> exact ⟨_, rfl, Fin.revPerm, by decide⟩
  nodes i x h := by
    have hi : i < 5 := (List.getElem?_eq_some_iff.1 h).1
    interval_cases i <;> simp only [twoMesh, List.getElem?_cons_succ, List.getElem?_cons_zero, Option.some.injEq] at h <;>
      subst h <;> refine ⟨_, rfl, ?_⟩ <;> funext k <;> match k with
      | 0 => simp [moved, twoVal, Fin.sum_univ_three] <;> norm_num
      | 1 => simp [moved, twoVal, Fin.sum_univ_three] <;> norm_num
      | 2 => simp [moved, twoVal, Fin.sum_univ_three] <;> norm_num

/-- A deck for the turned mesh with five groups. -/
def turnDeck : Str :=
  ("GaussElim NoPivot\nSweepType OriginalTycho2\nMPIType CapsaicinTwoSided\nsnOrder 2\niterMax 7\nerrMax 2.0\n"
    ++ "maxCellsPerStep 1\nintraAngleP 0\ninterAngleP 2\nnGroups 5\nsigmaT1 1.0\nsigmaS1 0.5\nsigmaT2 2.0\n"
    ++ "sigmaS2 0.0\nOutputFile TRUE\nOutputFilename turn.psi\nSourceIteration false\nDD_IterMax 1\nDD_ErrMax 1.0\n").toList

def turnSettings : Settings Str :=
  ⟨2, 7, "2.0".toList, 1, 0, 2, 5, "1.0".toList, "0.5".toList, "2.0".toList, "0.0".toList, true, "turn.psi".toList, 1,
    "1.0".toList, false, .capsaicinTwoSided, .originalTycho2, .noPivot⟩

def turnTexts (name : Str) : Option Str :=
  if name = "graph".toList then some graphDeck else if name = "turn".toList then some turnDeck else none

theorem turn_reads : (readInput some turnTexts .original "graph".toList).toOption = some graphSettings ∧
    (readInput some turnTexts .original "turn".toList).toOption = some turnSettings := by decide +kernel

/-- C85: two complete runs, one on the mesh of two cells with two groups that walks the graph on two ranks, one on the turned and
renumbered mesh with five groups that follows schedules on three ranks. All conditions of `good_moved` and `main_upright` hold; the
two print the same error, and their files hold the same numbers at the new numbers. -/
theorem turn_mains : ∃ (W : World) (deck deck' : Deck) (p p' : Problem ℝ) (sS sS' : Nat → ℝ) (g g' : List UInt8) (e : Option ℝ)
    (f f' : Verif.PsiFile.File) (s s' : Settings ℝ), Good W.val twoMesh.bytes twoMesh deck p sS (3 / 4) ∧
    Good W.val turnMesh.bytes turnMesh deck' p' sS' (3 / 4) ∧ deck.nGroups = 2 ∧ deck'.nGroups = 5 ∧
    Upright s.snOrder ![![0, -1, 0], ![1, 0, 0], ![0, 0, 1]] ∧
    SameMesh ![![0, -1, 0], ![1, 0, 0], ![0, 0, 1]] W.val turnNumbers twoMesh turnMesh ∧ SameMaterials s s' ∧
    W.texts "graph".toList = some graphDeck ∧ W.texts "turn".toList = some turnDeck ∧
    readInput W.stod W.texts .original "graph".toList = .ok s ∧ readInput W.stod W.texts .original "turn".toList = .ok s' ∧
    Asks s deck ∧ Asks s' deck' ∧ W.files "two.pmesh".toList = some g ∧ W.files "three.pmesh".toList = some g' ∧
    Partitioned W.val twoMesh.bytes 2 g ∧ Partitioned W.val turnMesh.bytes 3 g' ∧ AwayFrom p twoMesh tolerance ∧
    Ran W (machine 2 1 true) ["two.pmesh".toList, "graph".toList] (.finished e (some ("graph.psi".toList, f))) ∧
    Ran W (machine 3 4 false) ["three.pmesh".toList, "turn".toList] (.finished e (some ("turn.psi".toList, f'))) ∧
    ∃ turn, SameDeck ![![0, -1, 0], ![1, 0, 0], ![0, 0, 1]] turn deck deck' ∧ ∃ u u' : Nat → Nat → Nat → Nat → Nat,
      Contents f 2 2 4 8 u ∧ Contents f' 2 5 4 8 u' ∧ ∀ g < 2, ∀ g' < 5, ∀ v : Fin 4, ∀ a < 8, ∀ c < 2,
        u' g' (turnNumbers.vertex c v) (turn a) (1 - c) = u g v a c := by
  obtain ⟨deck, p, sS, g, -, G, hQ, q1, q2, q3, q4, q5, hP, -, hw⟩ := two_good
  have hlen : deck.dirs.length = 8 := by
    have := Verif.Quadrature.count hQ
    omega
  let deck' : Deck := { deck with nGroups := 5 }
  have hU : Upright 2 ![![0, -1, 0], ![1, 0, 0], ![0, 0, 1]] := (upright_quarter (by norm_num) (by norm_num)).1
  obtain ⟨turn, U⟩ := upright_deck (deck' := deck') hQ rfl hU rfl rfl rfl rfl
  have hr : readSerial turnMesh.bytes = some turnMesh := by
    obtain ⟨f, h1, h2⟩ := serial_roundtrip turn_ok
    rw [turn_ok.write, Option.some.injEq] at h1
    subst h1
    simpa using h2 []
  have hsm : Small deck' turnMesh := ⟨by decide, by decide, by decide, by
    show deck.dirs.length * 2 < 2 ^ 64
    rw [hlen]; decide⟩
  obtain ⟨⟨p', sS', Ds'⟩, hG⟩ := good_moved (upright_orthogonal hU) turn_same U G hr turn_tets hsm (Nat.succ_pos 4)
    (by show deck.dirs.length * 4 * 5 < 2 ^ 31; rw [hlen]; decide)
    (by show 64 + 8 * (2 * (deck.dirs.length * 4 * 5)) ≤ 2 ^ 63; rw [hlen]; decide)
  obtain ⟨G', hw'⟩ := hG p' sS' Ds'
  obtain ⟨-, q2'⟩ := partition_succeeds (val := twoVal) hr turn_tets hsm
  have hM : ∀ (k : Nat) (G : Verif.Partition.Metis), (List.replicate k 2).length = k ∧ ∀ q ∈ List.replicate k 2, q < 3 := by
    intro k G
    refine ⟨by simp, fun q hq => ?_⟩
    rw [(List.mem_replicate.1 hq).2]; decide
  obtain ⟨g', hg'⟩ := q2' (fun k _ _ => List.replicate k 2) 3 hM (by decide) (by decide)
  have hP' : Partitioned twoVal turnMesh.bytes 3 g' := .metis hM (by decide) hg'
  let W := twoWorld turnTexts g g'
  obtain ⟨f1, f2⟩ := twoWorld_files turnTexts g g'
  obtain ⟨v1, v2, v3, v4⟩ := number_values
  have r1 : readInput W.stod W.texts .original "graph".toList = .ok (mapSettings numberOf graphSettings) :=
    readInput_map numberOf some turnTexts .original _ (ok_of_toOption turn_reads.1)
  have r2 : readInput W.stod W.texts .original "turn".toList = .ok (mapSettings numberOf turnSettings) :=
    readInput_map numberOf some turnTexts .original _ (ok_of_toOption turn_reads.2)
  have hd : Asks (mapSettings numberOf graphSettings) deck := ⟨hQ, q1, q2.trans v1.symm, q3.trans v2.symm,
    q4.trans v3.symm, q5.trans v4.symm⟩
  have hd' : Asks (mapSettings numberOf turnSettings) deck' := ⟨hQ, rfl, q2.trans v1.symm, q3.trans v2.symm,
    q4.trans v3.symm, q5.trans v4.symm⟩
  have hss : SameMaterials (mapSettings numberOf graphSettings) (mapSettings numberOf turnSettings) :=
    ⟨rfl, rfl, rfl, rfl, rfl⟩
  obtain ⟨e, out, h1⟩ := main_finishes (W := W) (C := machine 2 1 true) G r1 hd f1 hP (by decide) (by decide) rfl
    (.inl ⟨rfl, rfl, by decide⟩) []
  obtain ⟨e', out', h2⟩ := main_finishes (W := W) (C := machine 3 4 false) G' r2 hd' f2 hP' (by decide) (by decide) rfl
    (.inr ⟨.inr rfl, hw' _ hw, by decide⟩) []
  have n1 := main_output_name h1 r1
  have n2 := main_output_name h2 r2
  obtain ⟨⟨nm, f⟩, rfl⟩ := Option.isSome_iff_exists.1 (n1.1.2 rfl)
  obtain ⟨⟨nm', f'⟩, rfl⟩ := Option.isSome_iff_exists.1 (n2.1.2 rfl)
  obtain rfl := n1.2 nm f rfl
  obtain rfl := n2.2 nm' f' rfl
  have hU' : Upright (mapSettings numberOf graphSettings).snOrder ![![0, -1, 0], ![1, 0, 0], ![0, 0, 1]] := hU
  have S' : SameMesh ![![0, -1, 0], ![1, 0, 0], ![0, 0, 1]] W.val turnNumbers twoMesh turnMesh := turn_same
  have hmain := main_upright (W := W) (C := machine 2 1 true) (C' := machine 3 4 false) hU' S' hss G G' r1 r2 hd hd'
    f1 hP f2 hP' (by decide) (by decide) (by decide) (by decide) (fun _ => hw) h1 h2
  obtain ⟨i1, turn, U, i2⟩ := hmain
  obtain ⟨u, u', c1, c2, hu⟩ := i2 _ _ _ _ rfl rfl
  subst i1
  have hlen' : deck'.dirs.length = 8 := hlen
  rw [hlen, q1] at c1
  rw [hlen'] at c2
  refine ⟨W, deck, deck', p, p', sS, sS', g, g', e, f, f', mapSettings numberOf graphSettings, mapSettings numberOf turnSettings, G, G', q1, rfl, hU, turn_same, hss, rfl, rfl, r1, r2, hd, hd', f1, f2,
    hP, hP', hw, h1, h2, turn, U, u, u', c1, c2, fun g hg g' hg' v a ha c hc => ?_⟩
  have := hu g (by rw [q1]; exact hg) g' hg' v a (by rw [hlen]; exact ha) c hc
  have hcell : turnNumbers.cell c = 1 - c := if_pos hc
  rw [hcell] at this
  exact this

end Verif.Program
