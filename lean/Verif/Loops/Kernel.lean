import Verif.Loops.Props
import Verif.Floating.Model
import Mathlib.Data.List.FinRange

/-!
# The parallel loops compute the scalar flux and source of the solver

`Verif.Floating` takes the sum over the angles and the scattering source as functions of the entries. Here the
parallel loops, access by access, are shown to leave just these values in the arrays.
-/
namespace Verif.Loops

open Verif.Storage Verif.Floating

variable {F : Type} {n nA nG nC : Nat} {cells : Nat → List Nat} {phi psi wt source sigmaS total : Nat} {acc : F → F → F → F}
  {dflt : F} {w : Nat → F}

/-- The array `arr` of the memory holds `p`. -/
def Holds (m : Memory F) (arr nA nG nC : Nat) (p : Traverse.Psi F) : Prop :=
  ∀ g (v : Fin 4) a c, g < nG → a < nA → c < nC → m (arr, ((c * nA + a) * 4 + v) * nG + g) = p g v a c

/-- C103: `psiToPhi`, with any number of threads in any interleaving, leaves the scalar flux `Kernel.phi`. -/
theorem psiToPhi_kernel (K : Kernel F nA nG) (hK : ∀ x, K.toPhi x = (List.finRange nA).foldl (fun s a => acc s (x a) (w a)) K.zero)
    (hA : 0 < nA) (hW : nG * 4 * nA * nC < W) (hs : Shared n nC cells) (h1 : phi ≠ psi) (h2 : phi ≠ wt)
    {m : Memory F} {p : Traverse.Psi F} (hp : Holds m psi nA nG nC p) (hw : ∀ a < nA, m (wt, a) = w a) {k : Nat} {s : State F}
    (h : Runs (loop nA nG cells (phiBody acc dflt phi psi wt nA nG)) (setToValue m phi nG nC K.zero) k s) (hd : s.Done)
    {g : Nat} (v : Fin 4) {c : Nat} (hg : g < nG) (hc : c < nC) :
    s.memory (phi, (c * 4 + v) * nG + g) = K.phi p g v c := by
  rw [(psiToPhi_any hA hW hs h1 h2 h hd).1 g v c hg v.2 hc]
  unfold Kernel.phi
  rw [hK, ← List.map_coe_finRange_eq_range, List.foldl_map]
  apply List.foldl_ext
  intro x a _
  rw [hp g v a c hg a.2 hc, hw a a.2]

/-- C103: `psiToPhi` and then `calcTotalSource` leave the source `Kernel.totalSource` of the next sweep. -/
theorem totalSource_kernel (K : Kernel F nA nG) (hK : ∀ x, K.toPhi x = (List.finRange nA).foldl (fun s a => acc s (x a) (w a)) K.zero)
    (D : Tables F) (hA : 0 < nA) (hW : nG * 4 * nA * nC < W) (hs : Shared n nC cells) {n' : Nat} {cells' : Nat → List Nat}
    (hs' : Shared n' nC cells') (h1 : phi ≠ psi) (h2 : phi ≠ wt) (h3 : total ≠ phi) (h4 : total ≠ sigmaS) (h5 : source ≠ phi)
    (h6 : sigmaS ≠ phi)
    {m : Memory F} {p : Traverse.Psi F} (hp : Holds m psi nA nG nC p) (hw : ∀ a < nA, m (wt, a) = w a)
    (hq : Holds m source nA nG nC fun _ v a c => ((D.source[c]?).getD fun _ _ => K.zero) v a)
    (hsig : ∀ c < nC, m (sigmaS, c) = (D.sigmaS[c]?).getD K.zero) {k k' : Nat} {s s' : State F}
    (h : Runs (loop nA nG cells (phiBody acc dflt phi psi wt nA nG)) (setToValue m phi nG nC K.zero) k s) (hd : s.Done)
    (h' : Runs (loop nA nG cells' (totalBody K.total dflt source phi sigmaS total nA nG)) s.memory k' s') (hd' : s'.Done) :
    Holds s'.memory total nA nG nC (K.totalSource D p) := by
  intro g v a c hg ha hc
  have fr := (psiToPhi_any hA hW hs h1 h2 h hd).2
  rw [(calcTotalSource_any hW hA hs' h3 h4 h' hd').1 g v a c hg v.2 ha hc,
    psiToPhi_kernel K hK hA hW hs h1 h2 hp hw h hd v hg hc, fr _ (by rintro ⟨e, _⟩; exact h5 e),
    fr _ (by rintro ⟨e, _⟩; exact h6 e), hq g v a c hg ha hc, hsig c hc]
  rfl

/-! ### Concrete cases -/

/-- Two threads, three cells: the first thread has cells 0 and 2. -/
def exCells : Nat → List Nat
  | 0 => [0, 2]
  | 1 => [1]
  | _ => []

theorem ex_shared : Shared 2 3 exCells :=
  ⟨by decide, fun i hi => by match i, hi with | i + 2, _ => rfl⟩

/-- With two threads, whatever they do, `psiToPhi` ends after 96 accesses with `acc (acc 0 ψ₀ w₀) ψ₁ w₁`. The
arithmetic is one in which the order of the sum matters. -/
example {k : Nat} {s : State Int}
    (h : Runs (loop 2 1 exCells (phiBody (fun x y z => 10 * x + y * z) 0 0 1 2 2 1))
      (setToValue (fun p => (p.1 * 100 + p.2 : Int)) 0 1 3 0) k s) :
    ¬ s.Race ∧ (k = 96 → s.memory (0, 9) = 10 * ((100 + 17) * 200) + (100 + 21) * 201) ∧ k ≤ 96 := by
  have hW : 1 * 4 * 2 * 3 < W := by decide
  have he := loops_end (nA := 2) (nG := 1) ex_shared _ 3 (fun _ _ _ _ => rfl) h
  refine ⟨(loops_race_free (psi := 1) (phi := 0) (wt := 2) (nA := 2) (source := 0) (total := 0) (sigmaS := 0)
    (add := fun x _ _ => x) (by decide) hW ex_shared _ k s).1 (by decide) (by decide) h, ?_, he.1⟩
  intro hk
  rw [(psiToPhi_any (by decide) hW ex_shared (by decide) (by decide) h (he.2.2 hk)).1 0 1 2 (by decide) (by decide) (by decide)]
  decide

/-- Were the cell given to both threads, or the loop over the angles divided among them, there would be a race: a
thread at its store, another at its load of the same entry. -/
example : ∃ k s, Runs (loop 1 1 (fun i => if i < 2 then [0] else []) (phiBody (fun x y z => x + y * z) 0 0 1 2 1 1))
    (fun _ => (1 : Int)) k s ∧ s.Race := by
  refine ⟨3, _, ((Runs.start.step 0 ?_).step 0 ?_).step 0 ?_, 0, 1, (0, 0), true, false, by decide, ?_, ?_, Or.inl rfl⟩
  · decide +kernel
  · decide +kernel
  · decide +kernel
  · decide +kernel
  · decide +kernel

end Verif.Loops
