import Verif.PsiFile.Props
import Verif.TychoMesh.Link2
import Verif.Schedule.SweepMesh

/-!
# The output file of a sweep on a partitioned mesh (C38)
-/
set_option linter.unusedSectionVars false
set_option linter.unusedVariables false

namespace Verif.PsiFile
open Verif.MeshFile Verif.Traverse Verif.Transport Verif.TychoMesh Verif.Storage

variable {V : Type} [LinearOrder V] {val : Nat → V} {m : SerialMesh} {pv : List Nat} {n : Nat}
  {P : ParallelMesh} {T : Nat → Mesh}
variable {K : Type}

/-- `getLGCell` of the loaded meshes. -/
def lgOf (T : Nat → Mesh) (r i : Nat) : Nat := ((T r).getLGCell i).getD 0

/-- The flux arrays `D` of the ranks hold the values `psi`, rounded to bit patterns in some way. -/
structure Stored (bits : K → Nat) (n : Nat) (T : Nat → Mesh) (ng na : Nat) (psi : Nat → Psi K)
    (D : Nat → PsiData Nat) : Prop where
  ok : ∀ r < n, (D r).Ok
  dims : ∀ r < n, (D r).ng = ng ∧ (D r).nv = 4 ∧ (D r).na = na ∧ (D r).nc = (T r).nCells
  get : ∀ r < n, ∀ i < (T r).nCells, ∀ g < ng, ∀ v : Fin 4, ∀ a < na, (D r).get g v a i = some (bits (psi r g v a i))

/-- The loaded parts of a serial mesh hold each of its cells exactly once. -/
theorem loaded_spread (H : Created m pv n P) (L : Loaded val P T) (hn : 0 < n) {bits : K → Nat} {ng na : Nat}
    {psi : Nat → Psi K} {D : Nat → PsiData Nat} (hD : Stored bits n T ng na psi D) (hng : 0 < ng) (hna : 0 < na)
    (hblock : na * 4 * ng < 2 ^ 31) (hfile : 64 + 8 * (m.numCells * (na * 4 * ng)) ≤ 2 ^ 63) :
    Spread n m.numCells ng 4 na D (lgOf T) := by
  have hcell : ∀ r < n, ∀ i < (T r).nCells, IsCell P r i (lgOf T r i) ∧ lgOf T r i < m.numCells := by
    intro r hr i hi
    obtain ⟨c, hc⟩ := isCell_of_lt H L hr hi
    have := isCell_lg H L hc
    unfold lgOf
    rw [this.1]
    exact ⟨hc, this.2.2.2⟩
  refine ⟨hn, hD.ok, fun r hr => ⟨(hD.dims r hr).1, (hD.dims r hr).2.1, (hD.dims r hr).2.2.1⟩,
    ⟨hng, by decide, hna⟩, ?_, ?_, ?_, hblock, hfile⟩
  · intro r hr i hi
    rw [(hD.dims r hr).2.2.2] at hi
    exact (hcell r hr i hi).2
  · intro c hc
    obtain ⟨r, i, hi⟩ := isCell_exists H hc
    obtain ⟨h1, h2, h3, -⟩ := isCell_lg H L hi
    refine ⟨r, h2, i, by rw [(hD.dims r h2).2.2.2]; exact h3, ?_⟩
    unfold lgOf
    rw [h1]; rfl
  · intro r hr i hi r' hr' i' hi' e
    rw [(hD.dims r hr).2.2.2] at hi
    rw [(hD.dims r' hr').2.2.2] at hi'
    have h1 := (hcell r hr i hi).1
    rw [e] at h1
    exact isCell_unique H h1 (hcell r' hr' i' hi').1

/-- The arrays of two partitions that agree cell by cell give the same file. -/
theorem file_of_cells {V' : Type} [LinearOrder V'] {val' : Nat → V'} {pv' : List Nat} {n' : Nat}
    {P' : ParallelMesh} {T' : Nat → Mesh} (H : Created m pv n P) (L : Loaded val P T) (hn : 0 < n)
    (H' : Created m pv' n' P') (L' : Loaded val' P' T') (hn' : 0 < n') {bits : K → Nat} {ng na : Nat}
    (hng : 0 < ng) (hna : 0 < na) (hblock : na * 4 * ng < 2 ^ 31)
    (hfile : 64 + 8 * (m.numCells * (na * 4 * ng)) ≤ 2 ^ 63) {psi psi' : Nat → Psi K} {D D' : Nat → PsiData Nat}
    (hD : Stored bits n T ng na psi D) (hD' : Stored bits n' T' ng na psi' D') {psiS : Psi K}
    (h1 : ∀ r < n, ∀ i c, (T r).getLGCell i = some c → ∀ g < ng, ∀ v, ∀ a < na, psi r g v a i = psiS g v a c)
    (h2 : ∀ r < n', ∀ i c, (T' r).getLGCell i = some c → ∀ g < ng, ∀ v, ∀ a < na, psi' r g v a i = psiS g v a c)
    {f f' : File} (hf : Written n D (lgOf T) f) (hf' : Written n' D' (lgOf T') f') : f = f' := by
  refine psiFile_independent (loaded_spread H L hn hD hng hna hblock hfile)
    (loaded_spread H' L' hn' hD' hng hna hblock hfile) ?_ hf hf'
  intro r hr i hi r' hr' i' hi' e g hg v hv a ha
  rw [(hD.dims r hr).2.2.2] at hi
  rw [(hD'.dims r' hr').2.2.2] at hi'
  rw [hD.get r hr i hi g hg ⟨v, hv⟩ a ha, hD'.get r' hr' i' hi' g hg ⟨v, hv⟩ a ha]
  obtain ⟨c, hc⟩ := isCell_of_lt H L hr hi
  obtain ⟨c', hc'⟩ := isCell_of_lt H' L' hr' hi'
  have e1 := (isCell_lg H L hc).1
  have e2 := (isCell_lg H' L' hc').1
  unfold lgOf at e
  rw [e1, e2] at e
  obtain rfl : c = c' := e
  rw [h1 r hr i c e1 g hg ⟨v, hv⟩ a ha, h2 r' hr' i' c e2 g hg ⟨v, hv⟩ a ha]

/-- The arrays of `Stored` exist. -/
theorem stored_exists (bits : K → Nat) (n : Nat) (T : Nat → Mesh) (ng na : Nat) (psi : Nat → Psi K)
    (h : ∀ r < n, ng * 4 * na * (T r).nCells < W) : ∃ D, Stored bits n T ng na psi D := by
  refine ⟨fun r => ⟨ng, 4, na, (T r).nCells, (List.range (ng * 4 * na * (T r).nCells)).map fun k =>
    bits (psi r (k % ng) ⟨k / ng % 4, Nat.mod_lt _ (by decide)⟩ (k / ng / 4 % na) (k / ng / 4 / na))⟩, ?_, ?_, ?_⟩
  · intro r hr
    exact ⟨h r hr, by simp⟩
  · intro r _; exact ⟨rfl, rfl, rfl, rfl⟩
  · intro r hr i hi g hg v a ha
    obtain ⟨e, l⟩ := idx4 (h r hr) hg v.2 ha hi
    unfold PsiData.get PsiData.index rd
    simp only
    rw [if_pos ⟨hg, v.2, ha, hi⟩, Option.bind_some, e, List.getElem?_map, List.getElem?_range l, Option.map_some]
    have q1 : (((i * na + a) * 4 + v) * ng + g) / ng = (i * na + a) * 4 + v := by
      rw [Nat.mul_comm, Nat.mul_add_div (by omega), Nat.div_eq_of_lt hg, Nat.add_zero]
    have q2 : (((i * na + a) * 4 + v) * ng + g) % ng = g := by
      rw [Nat.mul_comm, Nat.mul_add_mod, Nat.mod_eq_of_lt hg]
    have q3 : ((i * na + a) * 4 + (v : Nat)) / 4 = i * na + a := by have := v.2; omega
    have q4 : ((i * na + a) * 4 + (v : Nat)) % 4 = v := by have := v.2; omega
    have q5 : (i * na + a) / na = i := by
      rw [Nat.mul_comm, Nat.mul_add_div (by omega), Nat.div_eq_of_lt ha, Nat.add_zero]
    have q6 : (i * na + a) % na = a := by
      rw [Nat.mul_comm, Nat.mul_add_mod, Nat.mod_eq_of_lt ha]
    congr 2
    simp only [q1, q2, q3, q5, q6]
    congr 1
    exact Fin.ext q4

variable [Field K] [LinearOrder K] [IsStrictOrderedRing K] {p : Problem K} {R : SweepRun K}

/-- C38: the output files of two traversal sweeps of one problem, on different partitions, with different
threads, batches, protocols and interleavings, are equal byte by byte. -/
theorem output_independent {V' : Type} [LinearOrder V'] {val' : Nat → V'} {pv' : List Nat} {n' : Nat}
    {P' : ParallelMesh} {T' : Nat → Mesh} {R' : SweepRun K} (H : Created m pv n P) (hn : n < uintMax)
    (L : Loaded val P T) (hph : p.Physical m) (hR : RunOf p n T R) (H' : Created m pv' n' P')
    (hn' : n' < uintMax) (L' : Loaded val' P' T') (hR' : RunOf p n' T' R') (h0 : 0 < n) (h0' : 0 < n')
    {s : State _ _} (h : Reachable R.cfg s) (hf : ∀ r < n, (s.rank r).phase = .finished)
    {s' : State _ _} (h' : Reachable R'.cfg s') (hf' : ∀ r < n', (s'.rank r).phase = .finished)
    (hng : 0 < p.nGroups) (hna : 0 < p.nAngles) (hblock : p.nAngles * 4 * p.nGroups < 2 ^ 31)
    (hfile : 64 + 8 * (m.numCells * (p.nAngles * 4 * p.nGroups)) ≤ 2 ^ 63)
    {bits : K → Nat} {psi psi' : Nat → Psi K}
    (hpsi : ∀ r < n, ∃ bnd, (s.rank r).data = some (psi r, bnd))
    (hpsi' : ∀ r < n', ∃ bnd, (s'.rank r).data = some (psi' r, bnd)) {D D' : Nat → PsiData Nat}
    (hD : Stored bits n T p.nGroups p.nAngles psi D) (hD' : Stored bits n' T' p.nGroups p.nAngles psi' D')
    {f f' : File} (hw : Written n D (lgOf T) f) (hw' : Written n' D' (lgOf T') f') : f = f' := by
  obtain ⟨psiS, d1, d2, -⟩ := sweep_serial H hn L hph hR h hf
  obtain ⟨psiS', e1, e2, e3⟩ := sweep_serial H' hn' L' hph hR' h' hf'
  refine file_of_cells H L h0 H' L' h0' hng hna hblock hfile hD hD' (psiS := psiS') ?_ ?_ hw hw'
  · intro r hr i c hc g hg v a ha
    obtain ⟨psi1, b1, k1, k2⟩ := d2 r hr
    obtain ⟨b, k⟩ := hpsi r hr
    rw [k1, Option.some.injEq, Prod.mk.injEq] at k
    rw [← k.1, k2 i c hc]
    exact e3 psiS d1 c (isCell_lg H L (lg_isCell H L hr hc)).2.2.2 a ha g hg v
  · intro r hr i c hc g hg v a ha
    obtain ⟨psi1, b1, k1, k2⟩ := e2 r hr
    obtain ⟨b, k⟩ := hpsi' r hr
    rw [k1, Option.some.injEq, Prod.mk.injEq] at k
    rw [← k.1, k2 i c hc]

/-- C38: the hypotheses of `output_independent` hold for `exMesh` on one rank and on two. -/
example (bits : ℚ → Nat) : ∃ (P P' : ParallelMesh) (T T' : Nat → Mesh) (D D' : Nat → PsiData Nat) (f : File),
    Created exMesh [0, 0] 1 P ∧ Created exMesh [1, 0] 2 P' ∧ Loaded (id : Nat → Nat) P T ∧ Loaded (id : Nat → Nat) P' T' ∧
    Written 1 D (lgOf T) f ∧ Written 2 D' (lgOf T') f := by
  obtain ⟨P, P', T, T', R, R', s, s', H, H', L, L', hR, hR', h, h', hf, hf', -⟩ := exMesh_runs
  have small : ∀ {pv : List Nat} {n : Nat} {P : ParallelMesh} {T : Nat → Mesh}, Created exMesh pv n P →
      Loaded (id : Nat → Nat) P T → ∀ r < n, exProblem.nGroups * 4 * exProblem.nAngles * (T r).nCells < W := by
    intro pv n P T H L r hr
    have hl := (create_cells H.create).1
    have hp : P.parts[r]? = some P.parts[r] := List.getElem?_eq_getElem (by omega)
    have h1 := (loaded_cells H L hp).1
    have h2 := part_le H hp
    have h3 := ((create_cells H.create).2 r _ hp).1
    have : exMesh.numCells = 2 := rfl
    have e1 : exProblem.nAngles = 1 := rfl
    have e2 : exProblem.nGroups = 2 := rfl
    rw [e1, e2]
    unfold W
    omega
  obtain ⟨psiS, -, d2, -⟩ := sweep_serial H (by decide) L exProblem_physical hR h hf
  obtain ⟨psiS', -, d2', -⟩ := sweep_serial H' (by decide) L' exProblem_physical hR' h' hf'
  choose! psi bnd hpsi using d2
  choose! psi' bnd' hpsi' using d2'
  obtain ⟨D, hD⟩ := stored_exists bits 1 T exProblem.nGroups exProblem.nAngles psi (small H L)
  obtain ⟨D', hD'⟩ := stored_exists bits 2 T' exProblem.nGroups exProblem.nAngles psi' (small H' L')
  obtain ⟨f, w⟩ := psiFile_returns (loaded_spread H L (by decide) hD (by decide) (by decide) (by decide) (by decide))
  obtain ⟨f', w'⟩ := psiFile_returns (loaded_spread H' L' (by decide) hD' (by decide) (by decide) (by decide) (by decide))
  have e : f = f' := output_independent H (by decide) L exProblem_physical hR H' (by decide) L' hR' (by decide)
    (by decide) h hf h' hf' (by decide) (by decide) (by decide) (by decide)
    (fun r hr => ⟨_, (hpsi r hr).1⟩) (fun r hr => ⟨_, (hpsi' r hr).1⟩) hD hD' w w'
  subst e
  exact ⟨P, P', T, T', D, D', f, H, H', L, L', w, w'⟩

end Verif.PsiFile
