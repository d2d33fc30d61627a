import Mathlib.Analysis.SpecialFunctions.Sqrt
import Mathlib.Analysis.SpecialFunctions.Pow.Real

/-
Model of `src/Problem.cc`: the built-in source, the error measure and the cross sections.

Simplifications: the arithmetic is that of the real numbers.  A floating point division by
zero gives infinity or NaN and the program continues; here it gives `none`, "not a real
number", and so does every operation on such a value.
-/

namespace Verif.Problem

/-- The globals that `Problem.cc` reads: numbers of cells, angles and groups
(`src/Global.hh:69-133`), `getCellNode` and `getNodeCoord` of the mesh
(`src/TychoMesh.hh:70-122`), the quadrature directions (`getXi`, `getEta`, `getMu`) and the
cross sections `g_sigmaT`, `g_sigmaS`. -/
structure Setup where
  nCells : Nat
  nAngles : Nat
  nGroups : Nat
  cellNode : Nat → Nat → Nat
  coord : Nat → Fin 3 → ℝ
  omega : Nat → Fin 3 → ℝ
  sigmaT : Nat → ℝ
  sigmaS : Nat → ℝ

/-- `cubeSize`, `src/Problem.cc:47`. -/
noncomputable def cubeSize : ℝ := 100

/-- Division of doubles, when the result is a number. -/
noncomputable def fdiv (a b : ℝ) : Option ℝ := if b = 0 then none else some (a / b)

/-- The position of a vertex relative to the centre of the cube, `src/Problem.cc:60-63`. -/
noncomputable def rel (s : Setup) (cell vrtx : Nat) (i : Fin 3) : ℝ :=
  s.coord (s.cellNode cell vrtx) i - cubeSize / 2

/-- `c = sqrt(x*x + y*y + z*z)`, `src/Problem.cc:69`. -/
noncomputable def dist (p : Fin 3 → ℝ) : ℝ := Real.sqrt (p 0 * p 0 + p 1 * p 1 + p 2 * p 2)

/-- The value written by `hatSource`, `src/Problem.cc:71-80`, for a vertex at `p` relative to
the centre. -/
noncomputable def hatValue (p om : Fin 3 → ℝ) (sT sS : ℝ) : Option ℝ :=
  let c := dist p
  if c ≤ 30 then do
    let a ← fdiv (p 0) (30 * c)
    let b ← fdiv (p 1) (30 * c)
    let d ← fdiv (p 2) (30 * c)
    return - a * om 0 - b * om 1 - d * om 2 + (sT - sS) * (1 - c / 30)
  else some 0

/-- An index of `PsiData`: group, vertex, angle, cell (`src/PsiData.hh`). -/
abbrev Idx := Nat × Nat × Nat × Nat

/-- The loop nest of `hatSource`, `src/Problem.cc:56-58` and `71`, in its order. -/
def loopIdx (s : Setup) : List Idx :=
  (List.range s.nCells).flatMap fun cell =>
  (List.range s.nAngles).flatMap fun angle =>
  (List.range 4).flatMap fun vrtx =>
  (List.range s.nGroups).map fun group => (group, vrtx, angle, cell)

/-- `hatSource`, `src/Problem.cc:54-82`, called by `getSource` (`src/Problem.cc:140-143`). -/
noncomputable def hatSource (s : Setup) (source : Idx → Option ℝ) : Idx → Option ℝ :=
  (loopIdx s).foldl (init := source) fun src i =>
    Function.update src i
      (hatValue (rel s i.2.2.2 i.2.1) (s.omega i.2.2.1) (s.sigmaT i.2.2.2) (s.sigmaS i.2.2.2))

/-- The loop body of `createCrossSections`, `src/Problem.cc:159-171`; the failing `Insist`
is `none`.  The values are copied, so their type does not matter. -/
def crossSection {α : Type} (sT1 sS1 sT2 sS2 : α) (material : Nat) : Option (α × α) :=
  if material = 1 then some (sT1, sS1)
  else if material = 2 then some (sT2, sS2)
  else none

/-- `createCrossSections`, `src/Problem.cc:149-172`, for the list of cell materials.  The
vectors have been resized to the number of cells and every entry is written in turn; this is
written as building the list. -/
def createCrossSections {α : Type} (sT1 sS1 sT2 sS2 : α) (materials : List Nat) :
    Option (List α × List α) :=
  match materials.mapM (crossSection sT1 sS1 sT2 sS2) with
  | none => none
  | some l => some (l.map Prod.fst, l.map Prod.snd)

/-- The exact flux used in `hatL2Error`, `src/Problem.cc:118-122`. -/
noncomputable def hatExact (p : Fin 3 → ℝ) : ℝ :=
  let c := dist p
  if c ≤ 30 then 1 - c / 30 else 0

/-- One (cell, angle, group) of `hatL2Error`, `src/Problem.cc:100-126`: the contributions to
`diff` and `norm`.  `g_nVrtxPerCell` is 4. -/
noncomputable def l2Term (s : Setup) (psi : Idx → ℝ) (cell angle group : Nat) : ℝ × ℝ :=
  let avg (f : Nat → ℝ) : ℝ := ((List.range 4).foldl (fun acc v => acc + f v) 0) / 4
  let p : Fin 3 → ℝ := fun i => avg fun v => rel s cell v i
  let psiVal := avg fun v => psi (group, v, angle, cell)
  let localDiff := psiVal - hatExact p
  (localDiff * localDiff, psiVal * psiVal)

/-- The sums of `hatL2Error` over one rank, `src/Problem.cc:93-127`. -/
noncomputable def l2Local (s : Setup) (psi : Idx → ℝ) : ℝ × ℝ :=
  ((List.range s.nCells).flatMap fun cell =>
   (List.range s.nAngles).flatMap fun angle =>
   (List.range s.nGroups).map fun group => (cell, angle, group)).foldl
    (fun acc i => (acc.1 + (l2Term s psi i.1 i.2.1 i.2.2).1, acc.2 + (l2Term s psi i.1 i.2.1 i.2.2).2))
    (0, 0)

/-- `hatL2Error`, `src/Problem.cc:91-134`, on the ranks with set-ups and fluxes `ranks`;
`Comm::gsum` adds over the ranks. -/
noncomputable def hatL2Error (ranks : List (Setup × (Idx → ℝ))) : Option ℝ :=
  let tot := ranks.foldl (fun acc r => (acc.1 + (l2Local r.1 r.2).1, acc.2 + (l2Local r.1 r.2).2)) (0, 0)
  (fdiv tot.1 tot.2).map Real.sqrt

end Verif.Problem
