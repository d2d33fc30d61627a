import Verif.Source.Solvers
import Verif.Domain.Examples

/-!
# Converged results exist; concrete cases for C41, C57 and C58
-/
set_option linter.unusedSectionVars false

namespace Verif.Source
open Classical List
open Verif.Transport Verif.Traverse Verif.Domain

variable {K : Type} [Field K] [LinearOrder K] [IsStrictOrderedRing K]
variable {R : SweepRun K} {X : Scat K}

/-- If the sweeper returns and the problem with scattering has a solution, the Krylov solver has an exact
solution. -/
theorem krylov_exists {S : Sweeper K} {L L0 : (Nat → Psi K) → (Nat → Psi K) → Prop}
    (C : Correct S L L0) (A : Affine R L L0) (st : S.State)
    (hS : ∀ st z psi src, ∃ st' psi', S.run st z psi src st' psi') {src star : Nat → Psi K}
    (hstar : Scatters R X L src star) (psi : Nat → Psi K) : ∃ x b rhs psi', LhsOp R X S x b ∧
      KrylovRhs R X S src rhs ∧ SamePhi R b rhs ∧ KrylovEnd R X S src x psi' := by
  let x := scal R X star
  obtain ⟨ms, hms⟩ := isMS_exists (R := R) (X := X) x
  obtain ⟨st1, psi1, h1⟩ := hS st true psi ms
  obtain ⟨phi1, hp1⟩ := isPhi_exists (R := R) (X := X) psi1
  have hop : LhsOp R X S x (fun r g v c => x r g v c - phi1 r g v c) :=
    ⟨st, psi, ms, st1, psi1, phi1, hms, h1, hp1, fun _ _ _ _ _ _ _ => rfl⟩
  obtain ⟨st2, psi2, h2⟩ := hS st false psi src
  obtain ⟨phi2, hp2⟩ := isPhi_exists (R := R) (X := X) psi2
  have hrhs : KrylovRhs R X S src phi2 := ⟨st, psi, st2, psi2, h2, hp2⟩
  obtain ⟨tot, ht⟩ := isTotal_exists (R := R) (X := X) src x
  obtain ⟨st3, psi3, h3⟩ := hS st false psi tot
  have hend : KrylovEnd R X S src x psi3 := ⟨tot, st, psi, st3, ht, h3⟩
  exact ⟨x, _, phi2, psi3, hop, hrhs, (krylov_complete C A hop hrhs hend hstar fun _ _ _ _ _ _ _ => rfl).1, hend⟩

/-- If the sweeper returns and the problem with scattering has a solution, an exactly converged inner
solve exists. -/
theorem solved_exists {S : Sweeper K} {L L0 : (Nat → Psi K) → (Nat → Psi K) → Prop}
    (C : Correct S L L0) (A : Affine R L L0) (st : S.State)
    (hS : ∀ st z psi src, ∃ st' psi', S.run st z psi src st' psi') {src star : Nat → Psi K}
    (hstar : Scatters R X L src star) (psi : Nat → Psi K) : ∃ psi', Solved R X S src psi psi' := by
  obtain ⟨x, b, rhs, psi', h1, h2, h3, h4⟩ := krylov_exists C A st hS hstar psi
  exact ⟨psi', .krylov h1 h2 h3 h4⟩

section
variable {mate : Loc → Option Loc} {node : Nat → Nat → Fin 4 → Nat}

theorem full_crossed_of (Xc : Crossed R.cfg mate) (src psi0 : Nat → Psi K) (bound : Nat → Bound K) (m : Nat) :
    Crossed (SweepRun.cfg { R with source := src, psi0 := psi0, bound0 := bound, maxCompute := m }) mate :=
  Xc

theorem full_acyclic_of (A : Acyclic R.cfg mate) (src psi0 : Nat → Psi K) (bound : Nat → Bound K) (m : Nat) :
    Acyclic (SweepRun.cfg { R with source := src, psi0 := psi0, bound0 := bound, maxCompute := m }) mate :=
  A

/-- The full sweep returns. -/
theorem fullSwept_exists (H : R.Physical) (L : Linked R.cfg mate) (Xc : Crossed R.cfg mate)
    (N : R.Nodes mate node) (hd : R.doComm = true) (A : Acyclic R.cfg mate) (hp : R.protocol = .tycho)
    (hm : 0 < R.maxCompute) (src psi0 : Nat → Psi K) : ∃ psi, FullSwept R src psi0 psi := by
  obtain ⟨n, s, hs, hf⟩ := traverse_finishes (full_linked L src psi0) hm (fun _ => hp)
    (full_crossed_of Xc src psi0 _ R.maxCompute) (full_acyclic_of A src psi0 _ R.maxCompute)
  have h1 := hs.reachable .init
  obtain ⟨psi, h2, -⟩ := fullRun_solves H L N hd h1 hf
  exact ⟨psi, s, h1, hf, h2⟩

/-- C57: converged results exist for the full sweep. -/
theorem traverse_result (H : R.Physical) (L : Linked R.cfg mate) (Xc : Crossed R.cfg mate)
    (N : R.Nodes mate node) (M : Matched R mate node) (hd : R.doComm = true) (A : Acyclic R.cfg mate)
    (hp : R.protocol = .tycho) (hm : 0 < R.maxCompute) {κ : K} (hκ : Ratio R X κ) (hκ1 : κ < 1) (k : Nat)
    (src : Nat → Psi K) : ∃ psi, Result R X k src psi := by
  obtain ⟨star, hs, -⟩ := full_scatter_exists_unique (X := X) H L Xc N M hd A hκ hκ1 src
  obtain ⟨psi, h⟩ := solved_exists (traverse_correct H L N hd) (full_affine H L N hd A) ()
    (fun _ _ psi src => by
      obtain ⟨psi', h⟩ := fullSwept_exists H L Xc N hd A hp hm src psi
      exact ⟨(), psi', h⟩) hs fun _ _ _ _ _ => 0
  exact ⟨psi, .traverse h⟩

theorem local_solved (H : R.Physical) (L : Linked R.cfg mate) (Xc : Crossed R.cfg mate)
    (N : R.Nodes mate node) (M : Matched R mate node) (hd : R.doComm = true) (A : Acyclic R.cfg mate)
    {κ : K} (hκ : Ratio R X κ) (hκ1 : κ < 1) (bound : Nat → Bound K) (src psi : Nat → Psi K) :
    ∃ psi', Solved R X (localSweeper R bound) src psi psi' := by
  obtain ⟨star, hs, -⟩ := local_scatter_exists_unique (X := X) H L Xc N M hd A hκ hκ1 bound src
  exact solved_exists (local_correct H L N bound) (local_affine H L N hd A bound) ()
    (fun _ z psi src => by
      obtain ⟨psi', h⟩ := local_sweep_exists H L hd Xc A src psi
        (if z then fun _ _ _ _ _ => 0 else bound)
      exact ⟨(), psi', h⟩) hs psi

theorem packed_consistent (L : Linked R.cfg mate) {psi : Nat → Psi K} {bound : Nat → Bound K}
    (hc : Consistent R mate node psi bound) (y : Nat → Nat → K) (any : Nat → Bound K) :
    Consistent R mate node psi fun r => vecToPsiBound R r (psiBoundToVec R r (bound r) (y r)) (any r) := by
  refine consistent_of_slots L hc fun r hr s hs => ?_
  obtain ⟨i, hi, e1, e2⟩ := unpack_slot L hr (psiBoundToVec R r (bound r) (y r)) (any r) hs
  rw [e1, e2]

/-- C57: the systems of `SweeperSchurOuter` and `SweeperSchurKrylov` have solutions, and so results. -/
theorem schurOuter_result (H : R.Physical) (L : Linked R.cfg mate) (Xc : Crossed R.cfg mate)
    (N : R.Nodes mate node) (M : Matched R mate node) (hd : R.doComm = true) (A : Acyclic R.cfg mate)
    {κ : K} (hκ : Ratio R X κ) (hκ1 : κ < 1) (src : Nat → Psi K) :
    ∃ x b rhs psi, SchurOuterOp R X x b ∧ SchurOuterRhs R X src rhs ∧ SameVec R b rhs ∧
      SchurOuterEnd R X src x psi := by
  obtain ⟨star, hs, -⟩ := full_scatter_exists_unique (X := X) H L Xc N M hd A hκ hκ1 src
  obtain ⟨bS, hbS⟩ := exchange_run_exists L Xc star (fun _ _ _ _ _ => 0)
  have hcons := (hbS.exchanged L Xc N).consistent
  let x : Nat → Nat → K := fun r => psiBoundToVec R r (bS r) (fun _ => 0)
  let bnd : Nat → Bound K := fun r => vecToPsiBound R r (x r) (fun _ _ _ _ => 0)
  obtain ⟨psi2, h2⟩ := local_solved (X := X) H L Xc N M hd A hκ hκ1 bnd (fun _ _ _ _ _ => 0)
    (fun _ _ _ _ _ => 0)
  obtain ⟨b2, hx2⟩ := exchange_run_exists L Xc psi2 bnd
  obtain ⟨psi1, h1⟩ := local_solved (X := X) H L Xc N M hd A hκ hκ1 (fun _ _ _ _ _ => 0) src
    (fun _ _ _ _ _ => 0)
  obtain ⟨b1, hx1⟩ := exchange_run_exists L Xc psi1 (fun _ _ _ _ _ => 0)
  obtain ⟨psi3, h3⟩ := local_solved (X := X) H L Xc N M hd A hκ hκ1 bnd src (fun _ _ _ _ _ => 0)
  have hop : SchurOuterOp R X x (fun r i => x r i - psiBoundToVec R r (b2 r) (fun _ => 0) i) :=
    ⟨fun _ _ _ _ _ => 0, _, psi2, b2, fun _ _ => 0, h2, hx2, fun _ _ _ _ => rfl⟩
  have hrhs : SchurOuterRhs R X src (fun r i => psiBoundToVec R r (b1 r) (fun _ => 0) i) :=
    ⟨psi1, b1, fun _ _ => 0, h1, hx1, fun _ _ _ _ => rfl⟩
  have hend : SchurOuterEnd R X src x psi3 := ⟨fun _ _ _ _ _ => 0, _, h3⟩
  refine ⟨x, _, _, psi3, hop, hrhs, ?_, hend⟩
  rw [schurOuter_iff H L Xc N M hd A hκ hκ1 hop hrhs hend (fun _ _ _ _ _ => 0)]
  have hcx := packed_consistent L hcons (fun _ _ => 0) (fun _ _ _ _ _ => 0)
  have s3 := solved_scatters (local_correct H L N _) (local_affine H L N hd A _) h3
  have sS : Scatters R X (fun src psi => LocalDG R mate node src bnd psi) src star :=
    full_is_local L N H hs hcx
  have hsame := scatter_unique H hκ hκ1 (local_dissipative H L N M) (local_affine H L N hd A _)
    (local_affine H L N hd A _) s3 sS
  exact hcx.congr L (sameFlux_symm hsame)

theorem schurKrylov_result (H : R.Physical) (L : Linked R.cfg mate) (Xc : Crossed R.cfg mate)
    (N : R.Nodes mate node) (M : Matched R mate node) (hd : R.doComm = true) (A : Acyclic R.cfg mate)
    {κ : K} (hκ : Ratio R X κ) (hκ1 : κ < 1) (src : Nat → Psi K) :
    ∃ x p b q rhs rhsPhi psi, SchurKrylovOp R X x p b q ∧ SchurKrylovRhs R X src rhs rhsPhi ∧
      SameVec R b rhs ∧ SamePhi R q rhsPhi ∧ SchurKrylovEnd R X src x p psi := by
  obtain ⟨star, hs, -⟩ := full_scatter_exists_unique (X := X) H L Xc N M hd A hκ hκ1 src
  obtain ⟨bS, hbS⟩ := exchange_run_exists L Xc star (fun _ _ _ _ _ => 0)
  have hcons := (hbS.exchanged L Xc N).consistent
  let x : Nat → Nat → K := fun r => psiBoundToVec R r (bS r) (fun _ => 0)
  let bnd : Nat → Bound K := fun r => vecToPsiBound R r (x r) (fun _ _ _ _ => 0)
  let p := scal R X star
  let ms : Nat → Psi K := fun r => phiToPsi (nest (R.nCells r) R.nAngles R.nGroups)
    (operatorS (R.nCells r) R.nGroups (X.sigmaS r) X.mPi (p r) (fun _ _ _ => 0)) (fun _ _ _ _ => 0)
  obtain ⟨psi2, h2⟩ := local_sweep_exists H L hd Xc A ms (fun _ _ _ _ _ => 0) bnd
  obtain ⟨b2, hx2⟩ := exchange_run_exists L Xc psi2 bnd
  obtain ⟨phi2, hp2⟩ := isPhi_exists (R := R) (X := X) psi2
  obtain ⟨psi1, h1⟩ := local_sweep_exists H L hd Xc A src (fun _ _ _ _ _ => 0) (fun _ _ _ _ _ => 0)
  obtain ⟨b1, hx1⟩ := exchange_run_exists L Xc psi1 (fun _ _ _ _ _ => 0)
  obtain ⟨phi1, hp1⟩ := isPhi_exists (R := R) (X := X) psi1
  let tot : Nat → Psi K := fun r => calcTotalSourceInPlace (X.sigmaS r) X.mPi
    (nest (R.nCells r) R.nAngles R.nGroups) (p r) (src r)
  obtain ⟨psi3, h3⟩ := local_sweep_exists H L hd Xc A tot (fun _ _ _ _ _ => 0) bnd
  have hop : SchurKrylovOp R X x p (fun r i => x r i - psiBoundToVec R r (b2 r) (fun _ => 0) i)
      (fun r g v c => p r g v c - phi2 r g v c) :=
    ⟨fun _ _ _ _ _ => 0, ms, _, psi2, b2, fun _ _ => 0, phi2,
      fun r _ => ⟨_, _, _, List.Perm.refl _, rfl⟩, h2, hx2, hp2, fun _ _ _ _ => rfl,
      fun _ _ _ _ _ _ _ => rfl⟩
  have hrhs : SchurKrylovRhs R X src (fun r i => psiBoundToVec R r (b1 r) (fun _ => 0) i) phi1 :=
    ⟨_, psi1, b1, fun _ _ => 0, h1, hx1, hp1, fun _ _ _ _ => rfl⟩
  have hend : SchurKrylovEnd R X src x p psi3 :=
    ⟨fun _ _ _ _ _ => 0, tot, _, fun r _ => ⟨_, List.Perm.refl _, rfl⟩, h3⟩
  have hcx := packed_consistent L hcons (fun _ _ => 0) (fun _ _ _ _ _ => 0)
  have eT : SameFlux R tot (scat X src p) := by
    intro r c a g v hr hc ha hg
    simp only [tot]
    rw [calcTotalSource_inPlace (List.Perm.refl _), calcTotalSource_value (List.Perm.refl _),
      if_pos ⟨hc, ha, hg⟩]
    rfl
  have hsame := localDG_unique H L N hd A (local_sweep_solves H L N h3)
    (full_is_local L N H (fullDG_congr hs (sameFlux_symm eT)) hcx)
  have := (schurKrylov_iff H L Xc N hd A hop hrhs hend (fun _ _ _ _ _ => 0)).2
    ⟨hcx.congr L (sameFlux_symm hsame), scal_congr hsame⟩
  exact ⟨x, p, _, _, _, _, psi3, hop, hrhs, this.1, this.2, hend⟩

end

/-! ### The two-rank mesh with scattering -/

/-- Two directions of weight 2, `4 π` taken as 4, `σs = 1/2` against `σt = 1`. -/
def exScat : Scat ℚ where
  wt _ := 2
  sigmaS _ _ := 1 / 2
  mPi := 1

theorem ex_ratio : Ratio (good true) exScat (1 / 2) where
  nonneg := by norm_num
  weights := by intro a _; simp [exScat]
  total := by decide +kernel
  scatter := by intro r c _ _; simp [exScat]; norm_num
  ratio := by
    intro r c _ _
    have : (∑ a ∈ Finset.range (good true).nAngles, exScat.wt a) = 4 := by decide +kernel
    rw [this]
    simp only [exScat, good, exRun]
    norm_num

theorem ex_matched : Matched (good true) exMate exNode where
  area := by
    intro x y a _ h ha
    have ha : a < 2 := ha
    rcases exMate_some h with ⟨rfl, rfl⟩ | ⟨rfl, rfl⟩ <;> interval_cases a <;> decide +kernel
  face := by
    intro x y v _ h hv
    rcases exMate_some h with ⟨rfl, rfl⟩ | ⟨rfl, rfl⟩ <;> fin_cases v <;> first
      | exact absurd rfl hv
      | exact ⟨1, by decide, by decide⟩
      | exact ⟨2, by decide, by decide⟩
      | exact ⟨3, by decide, by decide⟩

/-- C57, C58: on this mesh, with any source, all the methods have converged results and they agree. -/
example (src : Nat → Psi ℚ) : ∃ psi, Result (good true) exScat 1 src psi ∧
    ∀ psi', Result (good true) exScat 1 src psi' → SameFlux (good true) psi' psi := by
  have L := ex_linked false .tycho true
  obtain ⟨psi, h⟩ := traverse_result (X := exScat) (ex_physical _ _ _) L (ex_crossed _ _) (ex_nodes _ _ _)
    ex_matched rfl (ex_acyclic _ _) rfl (by decide) ex_ratio (by norm_num) 1 src
  exact ⟨psi, h, fun psi' h' => sweep_types_agree (ex_physical _ _ _) L (ex_crossed _ _)
    (ex_nodes _ _ _) ex_matched rfl (ex_acyclic _ _) ex_crossings ex_ratio (by norm_num) h' h⟩

/-- C41, C58: source iteration with the full sweep returns on this mesh, and each sweep divides the error
by at least four in the square of the norm. -/
example (src : Nat → Psi ℚ) (psi : Nat → Psi ℚ) : ∃ star tr psi' n,
    Scatters (good true) exScat (FullDG (good true) exMate exNode) src star ∧
    FixedPoint (good true) exScat (traverseSweeper (good true)) src (1 / 10) 100 () psi tr () psi' n ∧
    ∀ i (hi : i < tr.length), energy (good true) 0 (subPhi (scal (good true) exScat tr[i].2)
        (scal (good true) exScat star)) ≤ (1 / 4) ^ (i + 1) *
      energy (good true) 0 (subPhi (scal (good true) exScat psi) (scal (good true) exScat star)) := by
  have L := ex_linked false .tycho true
  have H := ex_physical false .tycho true
  have N := ex_nodes false .tycho true
  obtain ⟨star, hs, -⟩ := full_scatter_exists_unique (X := exScat) H L (ex_crossed _ _) N
    ex_matched rfl (ex_acyclic _ _) ex_ratio (by norm_num) src
  obtain ⟨tr, st', psi', n, h⟩ := fixedPoint_returns (R := good true) (X := exScat)
    (S := traverseSweeper (good true)) (fun _ psi src => by
      obtain ⟨psi', h⟩ := fullSwept_exists H L (ex_crossed _ _) N rfl (ex_acyclic _ _) rfl (by decide) src psi
      exact ⟨(), psi', h⟩) src (1 / 10) 100 () psi
  refine ⟨star, tr, psi', n, hs, h, fun i hi => ?_⟩
  have := fixedPoint_converges H ex_ratio (full_dissipative H L N ex_matched) (traverse_correct H L N rfl)
    (full_affine H L N rfl (ex_acyclic _ _)) hs h (g := 0) (by decide) i hi
  have e : ((1 / 2 : ℚ) ^ 2) = 1 / 4 := by norm_num
  rwa [e] at this

end Verif.Source
