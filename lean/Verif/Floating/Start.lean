import Verif.Floating.Props
import Verif.Problem.Props
import Verif.PsiFile.Mesh

/-!
# The set-up succeeds, and the output file (C86)
-/
set_option linter.unusedSectionVars false
namespace Verif.Floating

open Verif.MeshFile Verif.TychoMesh Verif.Traverse Verif.Floating.Spec Verif.PsiFile Verif.Storage

variable {F : Type} {nA nG : Nat} {K : Kernel F nA nG} {coord : Nat → F}
variable {S : Type} [LinearOrder S] {val : Nat → S} {m : SerialMesh} {pv : List Nat} {n : Nat} {P : ParallelMesh} {T : Nat → Mesh}
variable {D : Nat → Tables F}

theorem nodeCoord_some (H : Created m pv n P) {r : Nat} {part : Part} (hp : P.parts[r]? = some part) {i : Nat} {cell : PCell}
    (hc : part.cells[i]? = some cell) (v : Fin 4) : ∃ x, nodeCoord coord part (cell.nodes v) = some x := by
  obtain ⟨k1, -, k3, -, -, -, -, -, k9⟩ := create_connectivity H.create hp
  obtain ⟨d, hd, -, -, hn⟩ := k1 _ (mem_of_get hc)
  obtain ⟨w, hw, hg⟩ := hn v
  have hlt : cell.nodes v < part.numNodes := by
    rw [k9]; exact (List.getElem?_eq_some_iff.1 hw).1
  unfold nodeCoord
  rw [if_pos hlt, hw]
  exact ⟨_, rfl⟩

theorem cellCoords_some (H : Created m pv n P) (L : Loaded val P T) {r i c : Nat} (h : IsCell P r i c) {part : Part}
    (hp : P.parts[r]? = some part) : ∃ p, cellCoords coord part (T r) i = some p := by
  obtain ⟨cell, hc, rfl⟩ := cell_at h hp
  choose x hx using nodeCoord_some (coord := coord) H hp hc
  refine ⟨x, complete_iff.2 fun v => ?_⟩
  rw [cellNode_eq H L hp hc, Option.bind_some, hx]

theorem faceCoords_some (H : Created m pv n P) (L : Loaded val P T) {r i c : Nat} (h : IsCell P r i c) {part : Part}
    (hp : P.parts[r]? = some part) (f : Fin 4) : ∃ q, faceCoords coord part (T r) i f = some q := by
  obtain ⟨cell, hc, rfl⟩ := cell_at h hp
  obtain ⟨c', g, hat⟩ := exists_at H (x := ⟨r, i, f⟩) ⟨part, cell, hp, hc⟩
  obtain ⟨_, _, d, e, _, _, _, hd, -, hf, -⟩ := id hat
  choose x hx using nodeCoord_some (coord := coord) H hp hc
  have hv : ∀ k, ∃ v, (T r).getFaceToCellVrtx i f k = some v := fun k => by
    obtain ⟨v, a1, -⟩ := (face_vertices H L hat hd hf).1 k
    exact ⟨v, a1⟩
  choose v hv using hv
  refine ⟨fun k => x (v k), complete_iff.2 fun k => ?_⟩
  rw [hv, Option.bind_some, cellNode_eq H L hp hc, Option.bind_some, hx]

/-- C86: the set-up of the ranks succeeds when the materials are those of the input file and the normal of
every face can be computed. -/
theorem started_exists (H : Created m pv n P) (L : Loaded val P T) (hm : ∀ d ∈ m.cells, d.material = 1 ∨ d.material = 2)
    (hd : ∀ c f q p, FacePoints coord m c f q → CellPoints coord m c p → ∀ a < nA, ∃ x, K.omegaDotN a q p = some x) :
    ∃ D, Started K coord P T D := by
  have hl := (create_cells H.create).1
  have key : ∀ r, ∃ D, ∀ part, P.parts[r]? = some part → K.start coord part (T r) = some D := by
    intro r
    rcases hp : P.parts[r]? with _ | part
    · exact ⟨⟨[], [], [], [], [], []⟩, by simp⟩
    have hr : r < n := by
      have := (List.getElem?_eq_some_iff.1 hp).1
      omega
    have hcell : ∀ i ∈ List.range (T r).nCells, ∃ c, IsCell P r i c := fun i hi => isCell_of_lt H L hr (List.mem_range.1 hi)
    obtain ⟨lv, h1⟩ := mapM_exists (f := fun c => (cellCoords coord part (T r) c).map K.volume) (l := List.range (T r).nCells) (by
      intro i hi
      obtain ⟨c, hc⟩ := hcell i hi
      obtain ⟨p, e⟩ := cellCoords_some (coord := coord) H L hc hp
      exact ⟨_, by rw [e]; rfl⟩)
    obtain ⟨la, h2⟩ := mapM_exists (f := fun c => complete fun f => (faceCoords coord part (T r) c f).map K.area)
      (l := List.range (T r).nCells) (by
      intro i hi
      obtain ⟨c, hc⟩ := hcell i hi
      choose q e using faceCoords_some (coord := coord) H L hc hp
      exact ⟨fun f => K.area (q f), complete_iff.2 fun f => by rw [e]; rfl⟩)
    obtain ⟨ld, h3⟩ := mapM_exists (f := fun a => (List.range (T r).nCells).mapM fun c => complete fun f =>
      (faceCoords coord part (T r) c f).bind fun q => (cellCoords coord part (T r) c).bind fun p => K.omegaDotN a q p)
      (l := List.range nA) (by
      intro a ha
      refine mapM_exists fun i hi => ?_
      obtain ⟨c, hc⟩ := hcell i hi
      obtain ⟨p, e⟩ := cellCoords_some (coord := coord) H L hc hp
      choose q e' using faceCoords_some (coord := coord) H L hc hp
      have := fun f => hd c f (q f) p (faceCoords_points H L hc hp (e' f)) (cellCoords_points H L hc hp e) a (List.mem_range.1 ha)
      choose x hx using this
      exact ⟨x, complete_iff.2 fun f => by rw [e', Option.bind_some, e, Option.bind_some, hx]⟩)
    obtain ⟨B, -, -, -, -, hN, -, hM, -⟩ := loc_facts (x := ⟨r, 0, 0⟩) H L hp
    dsimp only at hM hN
    obtain ⟨sT, sS, h4⟩ := (Verif.Problem.cross_sections K.sigmaT1 K.sigmaS1 K.sigmaT2 K.sigmaS2 (T r).material).1.2 (by
      intro q hq
      rw [hM] at hq
      obtain ⟨cell, hc, rfl⟩ := List.mem_map.1 hq
      obtain ⟨k1, -⟩ := create_connectivity H.create hp
      obtain ⟨d, hd', he, -⟩ := k1 _ hc
      rw [he]
      exact hm d (mem_of_get hd'))
    obtain ⟨ls, h5⟩ := mapM_exists (f := fun c => (cellCoords coord part (T r) c).map fun p v a =>
      K.source a (p v) ((sT[c]?).getD K.zero) ((sS[c]?).getD K.zero)) (l := List.range (T r).nCells) (by
      intro i hi
      obtain ⟨c, hc⟩ := hcell i hi
      obtain ⟨p, e⟩ := cellCoords_some (coord := coord) H L hc hp
      exact ⟨_, by rw [e]; rfl⟩)
    refine ⟨⟨lv, la, ld, sT, sS, ls⟩, fun part' he => ?_⟩
    rw [Option.some.injEq] at he
    subst he
    unfold Kernel.start
    simp only [h1, h2, h3, h4, h5, Option.bind_eq_bind, Option.bind_some]
  choose D hD using key
  exact ⟨D, fun r part hp => hD r part hp⟩

/-- C86: the output files of two runs of source iteration that have made the same number of sweeps are
equal byte by byte, whatever the partition, the number of ranks and threads, the schedule and the
arithmetic of the machine. -/
theorem output_bitwise {S' : Type} [LinearOrder S'] {val' : Nat → S'} {pv' : List Nat} {n' : Nat} {P' : ParallelMesh} {T' : Nat → Mesh}
    {D' : Nat → Tables F} (H : Created m pv n P) (hn : n < uintMax) (h0 : 0 < n) (L : Loaded val P T) (hD : Started K coord P T D)
    (H' : Created m pv' n' P') (hn' : n' < uintMax) (h0' : 0 < n') (L' : Loaded val' P' T') (hD' : Started K coord P' T' D')
    (hcons : Consistent K coord m) (hs : ∀ r < n, nA * (T r).nCells < 2 ^ 64) (hs' : ∀ r < n', nA * (T' r).nCells < 2 ^ 64)
    (hng : 0 < nG) (hna : 0 < nA) (hblock : nA * 4 * nG < 2 ^ 31) (hfile : 64 + 8 * (m.numCells * (nA * 4 * nG)) ≤ 2 ^ 63)
    {k : Nat} {psi psi' : Nat → Psi F} (h : K.Iterated n T D k psi) (h' : K.Iterated n' T' D' k psi') {bits : F → Nat}
    {A A' : Nat → PsiData Nat} (hA : Stored bits n T nG nA psi A) (hA' : Stored bits n' T' nG nA psi' A')
    {f f' : File} (hf : Written n A (lgOf T) f) (hf' : Written n' A' (lgOf T') f') : f = f' := by
  obtain ⟨psiS, h1, h2⟩ := iterated_bitwise H hn L hD H' hn' L' hD' hcons hs hs' h h'
  exact file_of_cells H L h0 H' L' h0' hng hna hblock hfile hA hA' h1 h2 hf hf'

/-- Any number of iterations can be made. -/
theorem iterated_exists (H : Created m pv n P) (hn : n < uintMax) (L : Loaded val P T) (hD : Started K coord P T D)
    (hsort : Sorted K coord m) (hs : ∀ r < n, nA * (T r).nCells < 2 ^ 64) (sched : Schedule F)
    (ht : 0 < sched.threads) (hb : 0 < sched.batch) (hproto : sched.protocol = .tycho) (k : Nat) : ∃ psi, K.Iterated n T D k psi := by
  induction k with
  | zero => exact ⟨_, .zero⟩
  | succ k ih =>
    obtain ⟨psi, h⟩ := ih
    obtain ⟨psi', h', -⟩ := sweep_returns H hn L hD hsort hs (fun r => K.totalSource (D r) (psi r)) psi sched ht hb hproto
    exact ⟨psi', .succ h h'⟩

/-- C86: the source iteration comes to an end, on every partition and under every schedule of threads and
batches. -/
theorem fixedPoint_returns (H : Created m pv n P) (hn : n < uintMax) (L : Loaded val P T) (hD : Started K coord P T D)
    (hsort : Sorted K coord m) (hs : ∀ r < n, nA * (T r).nCells < 2 ^ 64) (sched : Schedule F)
    (ht : 0 < sched.threads) (hb : 0 < sched.batch) (hproto : sched.protocol = .tycho) (test : Test F) (iterMax : Nat) :
    ∃ psi l, K.FixedPoint test iterMax n T D psi l ∧ test.Ended iterMax l := by
  have key : ∀ k ≤ iterMax, ∃ psi l, K.FixedPoint test iterMax n T D psi l ∧ (test.Ended iterMax l ∨ l.length = k) := by
    intro k
    induction k with
    | zero => exact fun _ => ⟨_, [], .zero, .inr rfl⟩
    | succ k ih =>
      intro hk
      obtain ⟨psi, l, h, he | he⟩ := ih (by omega)
      · exact ⟨psi, l, h, .inl he⟩
      · cases hab : test.above (l.headD test.one)
        · exact ⟨psi, l, h, .inl (.inr hab)⟩
        · obtain ⟨psi', h', -⟩ := sweep_returns H hn L hD hsort hs (fun r => K.totalSource (D r) (psi r)) psi sched ht hb hproto
          exact ⟨psi', _, .succ h (by omega) hab h', .inr (by rw [List.length_cons, he])⟩
  obtain ⟨psi, l, h, he | he⟩ := key iterMax le_rfl
  · exact ⟨psi, l, h, he⟩
  · exact ⟨psi, l, h, .inl he.ge⟩

end Verif.Floating
