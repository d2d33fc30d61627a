import Verif.Domain.Linear
import Mathlib.Algebra.BigOperators.Group.List.Basic
import Mathlib.Algebra.BigOperators.Intervals

/-!
# The operators between angular and scalar flux (src/Util.cc:85-159)

Each function is a nest of loops with one assignment. The loops over cells run in parallel
(`#pragma omp parallel for`), so the iterations are executed in an order that the code does not
determine: `order` below is any arrangement of the iterations of the nest. Iterations that touch the same
entry belong to the same cell, hence to the same thread.

Arithmetic is that of a field; `mPi` is the value of `M_PI`.
-/
set_option linter.unusedSectionVars false

namespace Verif.Source
open Classical List
open Verif.Transport Verif.Traverse Verif.Domain

variable {K : Type} [Field K] [LinearOrder K]

/-! ### Model -/

/-- A scalar flux array: group, vertex, cell (src/PsiData.hh:274-371). -/
abbrev Phi (K : Type) := Nat → Fin 4 → Nat → K

/-- Quadrature weights, scattering cross section by rank and cell, `M_PI`. -/
structure Scat (K : Type) where
  wt : Nat → K
  sigmaS : Nat → Nat → K
  mPi : K

/-- An iteration of a nest over cell, angle, vertex, group. -/
structure It where
  cell : Nat
  angle : Nat
  vertex : Fin 4
  group : Nat
deriving DecidableEq

/-- The iterations of the nests of `psiToPhi`, `phiToPsi` and `calcTotalSource`
(src/Util.cc:90-93, 106-109, 122-125). -/
def nest (nCells nAngles nGroups : Nat) : List It :=
  (List.range nCells).flatMap fun c => (List.range nAngles).flatMap fun a =>
    (List.finRange 4).flatMap fun v => (List.range nGroups).map fun g => ⟨c, a, v, g⟩

/-- Assignment to an entry of a scalar flux array. -/
def Phi.set (phi : Phi K) (g : Nat) (v : Fin 4) (c : Nat) (x : K) : Phi K :=
  fun g' v' c' => if g' = g ∧ v' = v ∧ c' = c then x else phi g' v' c'

/-- Assignment to an entry of an angular flux array. -/
def setPsi (psi : Psi K) (g : Nat) (v : Fin 4) (a c : Nat) (x : K) : Psi K :=
  fun g' v' a' c' => if g' = g ∧ v' = v ∧ a' = a ∧ c' = c then x else psi g' v' a' c'

/-- `phi.setToValue(x)` for an array of `nGroups` by 4 by `nCells` entries (src/PsiData.hh:274-371). -/
def phiSetToValue (nCells nGroups : Nat) (x : K) (phi : Phi K) : Phi K :=
  fun g v c => if g < nGroups ∧ c < nCells then x else phi g v c

/-- `Util::psiToPhi` (src/Util.cc:85-97). -/
def psiToPhi (nCells nGroups : Nat) (wt : Nat → K) (order : List It) (phi : Phi K) (psi : Psi K) : Phi K :=
  order.foldl (fun phi i => Phi.set phi i.group i.vertex i.cell
      (phi i.group i.vertex i.cell + psi i.group i.vertex i.angle i.cell * wt i.angle))
    (phiSetToValue nCells nGroups 0 phi)

/-- `Util::phiToPsi` (src/Util.cc:103-112). -/
def phiToPsi (order : List It) (phi : Phi K) (psi : Psi K) : Psi K :=
  order.foldl (fun psi i => setPsi psi i.group i.vertex i.angle i.cell (phi i.group i.vertex i.cell)) psi

/-- `Util::calcTotalSource` (src/Util.cc:118-130). -/
def calcTotalSource (sigmaS : Nat → K) (mPi : K) (order : List It) (source : Psi K) (phi : Phi K)
    (total : Psi K) : Psi K :=
  order.foldl (fun total i => setPsi total i.group i.vertex i.angle i.cell
    (source i.group i.vertex i.angle i.cell +
      sigmaS i.cell / (4 * mPi) * phi i.group i.vertex i.cell)) total

/-- `Util::calcTotalSource` with the source as output (src/SweeperSchur.cc:604): what is read is the
array being written. -/
def calcTotalSourceInPlace (sigmaS : Nat → K) (mPi : K) (order : List It) (phi : Phi K)
    (source : Psi K) : Psi K :=
  order.foldl (fun total i => setPsi total i.group i.vertex i.angle i.cell
    (total i.group i.vertex i.angle i.cell +
      sigmaS i.cell / (4 * mPi) * phi i.group i.vertex i.cell)) source

/-- The iterations of the nest of `operatorS` (src/Util.cc:153-155), which is not parallel. -/
def nestS (nCells nGroups : Nat) : List (Nat × Fin 4 × Nat) :=
  (List.range nCells).flatMap fun c => (List.finRange 4).flatMap fun v =>
    (List.range nGroups).map fun g => (c, v, g)

/-- `Util::operatorS` (src/Util.cc:151-159). -/
def operatorS (nCells nGroups : Nat) (sigmaS : Nat → K) (mPi : K) (phi1 phi2 : Phi K) : Phi K :=
  (nestS nCells nGroups).foldl (fun phi2 i => Phi.set phi2 i.2.2 i.2.1 i.1
    (sigmaS i.1 / (4 * mPi) * phi1 i.2.2 i.2.1 i.1)) phi2

/-- `Util::operatorS` with both arguments the same array (src/SourceIteration.cc:95). -/
def operatorSInPlace (nCells nGroups : Nat) (sigmaS : Nat → K) (mPi : K) (phi : Phi K) : Phi K :=
  (nestS nCells nGroups).foldl (fun phi i => Phi.set phi i.2.2 i.2.1 i.1
    (sigmaS i.1 / (4 * mPi) * phi i.2.2 i.2.1 i.1)) phi

/-! ### Proofs -/

theorem mem_nest {nc na ng : Nat} {i : It} : i ∈ nest nc na ng ↔
    i.cell < nc ∧ i.angle < na ∧ i.group < ng := by
  obtain ⟨c, a, v, g⟩ := i
  simp only [nest, mem_flatMap, mem_range, mem_finRange, true_and, mem_map, It.mk.injEq]
  constructor
  · rintro ⟨c', h1, a', h2, v', g', h3, rfl, rfl, rfl, rfl⟩; exact ⟨h1, h2, h3⟩
  · rintro ⟨h1, h2, h3⟩; exact ⟨c, h1, a, h2, v, g, h3, rfl, rfl, rfl, rfl⟩

theorem nest_nodup (nc na ng : Nat) : (nest nc na ng).Nodup := by
  unfold nest
  rw [nodup_flatMap]
  refine ⟨fun c _ => ?_, ?_⟩
  · rw [nodup_flatMap]
    refine ⟨fun a _ => ?_, ?_⟩
    · rw [nodup_flatMap]
      refine ⟨fun v _ => ?_, ?_⟩
      · exact List.nodup_range.map fun g g' h => by simpa using h
      · refine (List.nodup_finRange 4).imp ?_
        intro v v' hne i h1 h2
        simp only [mem_map] at h1 h2
        obtain ⟨_, _, rfl⟩ := h1
        obtain ⟨_, _, h⟩ := h2
        simp at h; exact hne h.1.symm
    · refine List.nodup_range.imp ?_
      intro a a' hne i h1 h2
      simp only [mem_flatMap, mem_map] at h1 h2
      obtain ⟨_, _, _, _, rfl⟩ := h1
      obtain ⟨_, _, _, _, h⟩ := h2
      simp at h; exact hne h.1.symm
  · refine List.nodup_range.imp ?_
    intro a a' hne i h1 h2
    simp only [mem_flatMap, mem_map] at h1 h2
    obtain ⟨_, _, _, _, _, _, rfl⟩ := h1
    obtain ⟨_, _, _, _, _, _, h⟩ := h2
    simp at h; exact hne h.1.symm

theorem mem_nestS {nc ng : Nat} {c : Nat} {v : Fin 4} {g : Nat} : (c, v, g) ∈ nestS nc ng ↔
    c < nc ∧ g < ng := by
  simp only [nestS, mem_flatMap, mem_range, mem_finRange, true_and, mem_map, Prod.mk.injEq]
  constructor
  · rintro ⟨c', h1, v', g', h3, rfl, rfl, rfl⟩; exact ⟨h1, h3⟩
  · rintro ⟨h1, h3⟩; exact ⟨c, h1, v, g, h3, rfl, rfl, rfl⟩

theorem nestS_nodup (nc ng : Nat) : (nestS nc ng).Nodup := by
  unfold nestS
  rw [nodup_flatMap]
  refine ⟨fun c _ => ?_, ?_⟩
  · rw [nodup_flatMap]
    refine ⟨fun v _ => ?_, ?_⟩
    · exact List.nodup_range.map fun g g' h => by simpa using h
    · refine (List.nodup_finRange 4).imp ?_
      intro v v' hne i h1 h2
      simp only [mem_map] at h1 h2
      obtain ⟨_, _, rfl⟩ := h1
      obtain ⟨_, _, h⟩ := h2
      simp at h; exact hne h.1.symm
  · refine List.nodup_range.imp ?_
    intro a a' hne i h1 h2
    simp only [mem_flatMap, mem_map] at h1 h2
    obtain ⟨_, _, _, _, rfl⟩ := h1
    obtain ⟨_, _, _, _, h⟩ := h2
    simp at h; exact hne h.1.symm

/-- A loop of assignments to distinct entries of an angular array, each reading at most the entry
it writes. -/
theorem setPsi_fold (F : It → K → K) (l : List It) (psi : Psi K) (hn : l.Nodup) (g : Nat) (v : Fin 4)
    (a c : Nat) :
    l.foldl (fun psi i => setPsi psi i.group i.vertex i.angle i.cell
      (F i (psi i.group i.vertex i.angle i.cell))) psi g v a c =
    if (⟨c, a, v, g⟩ : It) ∈ l then F ⟨c, a, v, g⟩ (psi g v a c) else psi g v a c := by
  induction l generalizing psi with
  | nil => simp
  | cons i l ih =>
    rw [List.nodup_cons] at hn
    rw [List.foldl_cons, ih _ hn.2]
    by_cases e : (⟨c, a, v, g⟩ : It) = i
    · subst e
      simp [hn.1, setPsi]
    · have : ¬ (g = i.group ∧ v = i.vertex ∧ a = i.angle ∧ c = i.cell) := by
        rintro ⟨rfl, rfl, rfl, rfl⟩; exact e rfl
      simp [setPsi, this, e]

/-- The same for scalar arrays. -/
theorem setPhi_fold (F : Nat × Fin 4 × Nat → K → K) (l : List (Nat × Fin 4 × Nat)) (phi : Phi K)
    (hn : l.Nodup) (g : Nat) (v : Fin 4) (c : Nat) :
    l.foldl (fun phi i => Phi.set phi i.2.2 i.2.1 i.1 (F i (phi i.2.2 i.2.1 i.1))) phi g v c =
    if (c, v, g) ∈ l then F (c, v, g) (phi g v c) else phi g v c := by
  induction l generalizing phi with
  | nil => simp
  | cons i l ih =>
    rw [List.nodup_cons] at hn
    rw [List.foldl_cons, ih _ hn.2]
    by_cases e : (c, v, g) = i
    · subst e
      simp [hn.1, Phi.set]
    · have : ¬ (g = i.2.2 ∧ v = i.2.1 ∧ c = i.1) := by
        rintro ⟨rfl, rfl, rfl⟩; exact e rfl
      simp [Phi.set, this, e]

/-- A loop of additions to entries of a scalar array. -/
theorem add_fold (F : It → K) (l : List It) (phi : Phi K) (g : Nat) (v : Fin 4) (c : Nat) :
    l.foldl (fun phi i => Phi.set phi i.group i.vertex i.cell
      (phi i.group i.vertex i.cell + F i)) phi g v c =
    phi g v c + ((l.filter fun i => i.group = g ∧ i.vertex = v ∧ i.cell = c).map F).sum := by
  induction l generalizing phi with
  | nil => simp
  | cons i l ih =>
    rw [List.foldl_cons, ih]
    by_cases e : i.group = g ∧ i.vertex = v ∧ i.cell = c
    · obtain ⟨rfl, rfl, rfl⟩ := e
      simp [Phi.set, add_assoc]
    · have : ¬ (g = i.group ∧ v = i.vertex ∧ c = i.cell) := by
        rintro ⟨rfl, rfl, rfl⟩; exact e ⟨rfl, rfl, rfl⟩
      rw [List.filter_cons_of_neg (by simpa using e)]
      simp [Phi.set, this]

section
variable {nc na ng : Nat} {order : List It}

theorem order_mem (ho : order.Perm (nest nc na ng)) {g : Nat} {v : Fin 4} {a c : Nat} :
    (⟨c, a, v, g⟩ : It) ∈ order ↔ c < nc ∧ a < na ∧ g < ng := by
  rw [ho.mem_iff, mem_nest]

/-- C40: the scalar flux is the weighted sum over the angles, whatever the array held before and whatever
the order of execution. -/
theorem psiToPhi_sum (ho : order.Perm (nest nc na ng)) (wt : Nat → K) (phi : Phi K) (psi : Psi K)
    {g : Nat} (hg : g < ng) (v : Fin 4) {c : Nat} (hc : c < nc) :
    psiToPhi nc ng wt order phi psi g v c = ∑ a ∈ Finset.range na, psi g v a c * wt a := by
  unfold psiToPhi
  rw [add_fold (fun i => psi i.group i.vertex i.angle i.cell * wt i.angle)]
  have h0 : phiSetToValue nc ng 0 phi g v c = 0 := by simp [phiSetToValue, hg, hc]
  rw [h0, zero_add]
  have hp : (order.filter fun i => i.group = g ∧ i.vertex = v ∧ i.cell = c).Perm
      ((List.range na).map fun a => (⟨c, a, v, g⟩ : It)) := by
    rw [List.perm_ext_iff_of_nodup ((ho.nodup_iff.2 (nest_nodup _ _ _)).filter _)
      (List.nodup_range.map fun a a' h => by simpa using h)]
    intro i
    simp only [mem_filter, ho.mem_iff, mem_nest, decide_eq_true_eq, mem_map, mem_range]
    constructor
    · rintro ⟨⟨_, h, _⟩, rfl, rfl, rfl⟩; exact ⟨i.angle, h, rfl⟩
    · rintro ⟨a, h, rfl⟩; exact ⟨⟨hc, h, hg⟩, rfl, rfl, rfl⟩
  rw [(hp.map _).sum_eq, List.map_map]
  clear hp h0 ho
  induction na with
  | zero => simp
  | succ n ih => rw [List.range_succ, List.map_append, List.sum_append, ih, Finset.sum_range_succ]; simp

/-- Entries outside the array do not exist; the model leaves them alone. -/
theorem psiToPhi_frame (ho : order.Perm (nest nc na ng)) (wt : Nat → K) (phi : Phi K) (psi : Psi K)
    {g : Nat} (v : Fin 4) {c : Nat} (h : ¬ (g < ng ∧ c < nc)) :
    psiToPhi nc ng wt order phi psi g v c = phi g v c := by
  unfold psiToPhi
  rw [add_fold (fun i => psi i.group i.vertex i.angle i.cell * wt i.angle)]
  have h0 : phiSetToValue nc ng 0 phi g v c = phi g v c := by simp [phiSetToValue, h]
  have : order.filter (fun i => i.group = g ∧ i.vertex = v ∧ i.cell = c) = [] := by
    rw [List.filter_eq_nil_iff]
    intro i hi
    rw [ho.mem_iff, mem_nest] at hi
    simp only [decide_eq_true_eq]
    rintro ⟨rfl, rfl, rfl⟩
    exact h ⟨hi.2.2, hi.1⟩
  rw [h0, this]; simp

/-- C40: the source of a scalar flux is the same in all angles. -/
theorem phiToPsi_value (ho : order.Perm (nest nc na ng)) (phi : Phi K) (psi : Psi K) (g : Nat)
    (v : Fin 4) (a c : Nat) : phiToPsi order phi psi g v a c =
      if c < nc ∧ a < na ∧ g < ng then phi g v c else psi g v a c := by
  unfold phiToPsi
  rw [setPsi_fold (fun i _ => phi i.group i.vertex i.cell) _ _ (ho.nodup_iff.2 (nest_nodup _ _ _))]
  simp only [order_mem ho]

/-- C40: the total source is the fixed source plus `σs/(4π)` times the scalar flux. -/
theorem calcTotalSource_value (ho : order.Perm (nest nc na ng)) (sigmaS : Nat → K) (mPi : K)
    (source : Psi K) (phi : Phi K) (total : Psi K) (g : Nat) (v : Fin 4) (a c : Nat) :
    calcTotalSource sigmaS mPi order source phi total g v a c =
      if c < nc ∧ a < na ∧ g < ng then source g v a c + sigmaS c / (4 * mPi) * phi g v c
      else total g v a c := by
  unfold calcTotalSource
  rw [setPsi_fold (fun i _ => source i.group i.vertex i.angle i.cell +
      sigmaS i.cell / (4 * mPi) * phi i.group i.vertex i.cell) _ _ (ho.nodup_iff.2 (nest_nodup _ _ _))]
  simp only [order_mem ho]

/-- C40: also when the output is the source array itself. -/
theorem calcTotalSource_inPlace (ho : order.Perm (nest nc na ng)) (sigmaS : Nat → K) (mPi : K)
    (source : Psi K) (phi : Phi K) :
    calcTotalSourceInPlace sigmaS mPi order phi source =
      calcTotalSource sigmaS mPi order source phi source := by
  funext g v a c
  rw [calcTotalSource_value ho]
  unfold calcTotalSourceInPlace
  rw [setPsi_fold (fun i x => x + sigmaS i.cell / (4 * mPi) * phi i.group i.vertex i.cell) _ _
    (ho.nodup_iff.2 (nest_nodup _ _ _))]
  simp only [order_mem ho]

end

/-- C40: the scattering operator multiplies by `σs/(4π)`. -/
theorem operatorS_value (nc ng : Nat) (sigmaS : Nat → K) (mPi : K) (phi1 phi2 : Phi K) (g : Nat)
    (v : Fin 4) (c : Nat) : operatorS nc ng sigmaS mPi phi1 phi2 g v c =
      if c < nc ∧ g < ng then sigmaS c / (4 * mPi) * phi1 g v c else phi2 g v c := by
  unfold operatorS
  rw [setPhi_fold (fun i _ => sigmaS i.1 / (4 * mPi) * phi1 i.2.2 i.2.1 i.1) _ _ (nestS_nodup _ _)]
  simp only [mem_nestS]

/-- C40: also when both arguments are the same array. -/
theorem operatorS_inPlace (nc ng : Nat) (sigmaS : Nat → K) (mPi : K) (phi : Phi K) :
    operatorSInPlace nc ng sigmaS mPi phi = operatorS nc ng sigmaS mPi phi phi := by
  funext g v c
  rw [operatorS_value]
  unfold operatorSInPlace
  rw [setPhi_fold (fun i x => sigmaS i.1 / (4 * mPi) * x) _ _ (nestS_nodup _ _)]
  simp only [mem_nestS]

/-- The operators on entries of an array: equality of angular arrays. -/
def EqPsi (nc na ng : Nat) (p q : Psi K) : Prop :=
  ∀ g v a c, g < ng → a < na → c < nc → p g v a c = q g v a c

/-- Equality of scalar arrays. -/
def EqPhi (nc ng : Nat) (p q : Phi K) : Prop := ∀ g v c, g < ng → c < nc → p g v c = q g v c

section
variable {nc na ng : Nat} {order order' order'' : List It}

/-- C40: linear. -/
theorem psiToPhi_linear (ho : order.Perm (nest nc na ng)) (ho' : order'.Perm (nest nc na ng))
    (ho'' : order''.Perm (nest nc na ng)) (wt : Nat → K) (p p' p'' : Phi K) (k : K) (psi psi' : Psi K) :
    EqPhi nc ng (psiToPhi nc ng wt order p fun g v a c => psi g v a c + k * psi' g v a c)
      fun g v c => psiToPhi nc ng wt order' p' psi g v c + k * psiToPhi nc ng wt order'' p'' psi' g v c := by
  intro g v c hg hc
  rw [psiToPhi_sum ho _ _ _ hg _ hc]
  show _ = psiToPhi nc ng wt order' p' psi g v c + k * psiToPhi nc ng wt order'' p'' psi' g v c
  rw [psiToPhi_sum ho' _ _ _ hg _ hc, psiToPhi_sum ho'' _ _ _ hg _ hc, Finset.mul_sum,
    ← Finset.sum_add_distrib]
  exact Finset.sum_congr rfl fun _ _ => by ring

/-- C40: linear. -/
theorem phiToPsi_linear (ho : order.Perm (nest nc na ng)) (ho' : order'.Perm (nest nc na ng))
    (ho'' : order''.Perm (nest nc na ng)) (p p' p'' : Psi K) (k : K) (phi phi' : Phi K) :
    EqPsi nc na ng (phiToPsi order (fun g v c => phi g v c + k * phi' g v c) p)
      fun g v a c => phiToPsi order' phi p' g v a c + k * phiToPsi order'' phi' p'' g v a c := by
  intro g v a c hg ha hc
  simp only [phiToPsi_value ho, phiToPsi_value ho', phiToPsi_value ho'', hg, ha, hc, and_self, if_true]

/-- C40: linear in source and flux together. -/
theorem calcTotalSource_linear (ho : order.Perm (nest nc na ng)) (ho' : order'.Perm (nest nc na ng))
    (ho'' : order''.Perm (nest nc na ng)) (sigmaS : Nat → K) (mPi : K) (p p' p'' : Psi K) (k : K)
    (src src' : Psi K) (phi phi' : Phi K) :
    EqPsi nc na ng (calcTotalSource sigmaS mPi order (fun g v a c => src g v a c + k * src' g v a c)
        (fun g v c => phi g v c + k * phi' g v c) p)
      fun g v a c => calcTotalSource sigmaS mPi order' src phi p' g v a c +
        k * calcTotalSource sigmaS mPi order'' src' phi' p'' g v a c := by
  intro g v a c hg ha hc
  simp only [calcTotalSource_value ho, calcTotalSource_value ho', calcTotalSource_value ho'', hg, ha, hc,
    and_self, if_true]
  ring

/-- C40: linear. -/
theorem operatorS_linear (sigmaS : Nat → K) (mPi : K) (p p' p'' : Phi K) (k : K) (phi phi' : Phi K) :
    EqPhi nc ng (operatorS nc ng sigmaS mPi (fun g v c => phi g v c + k * phi' g v c) p)
      fun g v c => operatorS nc ng sigmaS mPi phi p' g v c + k * operatorS nc ng sigmaS mPi phi' p'' g v c := by
  intro g v c hg hc
  simp only [operatorS_value, hg, hc, and_self, if_true]
  ring

/-- C40: group `g` of every result depends on group `g` of the arguments only. -/
theorem operators_groupwise (ho : order.Perm (nest nc na ng)) (ho' : order'.Perm (nest nc na ng))
    (wt : Nat → K) (sigmaS : Nat → K) (mPi : K) (p p' : Phi K) (q q' : Psi K) {g : Nat} (hg : g < ng)
    {psi psi' src src' : Psi K} {phi phi' : Phi K}
    (h1 : ∀ v a c, a < na → c < nc → psi g v a c = psi' g v a c)
    (h2 : ∀ v a c, a < na → c < nc → src g v a c = src' g v a c)
    (h3 : ∀ v c, c < nc → phi g v c = phi' g v c) :
    (∀ v c, c < nc →
      psiToPhi nc ng wt order p psi g v c = psiToPhi nc ng wt order' p' psi' g v c ∧
      operatorS nc ng sigmaS mPi phi p g v c = operatorS nc ng sigmaS mPi phi' p' g v c) ∧
    ∀ v a c, a < na → c < nc →
      phiToPsi order phi q g v a c = phiToPsi order' phi' q' g v a c ∧
      calcTotalSource sigmaS mPi order src phi q g v a c =
        calcTotalSource sigmaS mPi order' src' phi' q' g v a c := by
  refine ⟨fun v c hc => ⟨?_, ?_⟩, fun v a c ha hc => ⟨?_, ?_⟩⟩
  · rw [psiToPhi_sum ho _ _ _ hg _ hc, psiToPhi_sum ho' _ _ _ hg _ hc]
    exact Finset.sum_congr rfl fun a ha => by rw [h1 v a c (Finset.mem_range.1 ha) hc]
  · simp only [operatorS_value, hg, hc, and_self, if_true, h3 v c hc]
  · simp only [phiToPsi_value ho, phiToPsi_value ho', hg, ha, hc, and_self, if_true, h3 v c hc]
  · simp only [calcTotalSource_value ho, calcTotalSource_value ho', hg, ha, hc, and_self, if_true,
      h3 v c hc, h2 v a c ha hc]

/-- The composition used for the scattering source in the solvers, `phiToPsi` of `operatorS`, is what
`calcTotalSource` adds. -/
theorem scattering_agree (ho : order.Perm (nest nc na ng)) (ho' : order'.Perm (nest nc na ng))
    (sigmaS : Nat → K) (mPi : K) (phi p : Phi K) (q q' : Psi K) :
    EqPsi nc na ng (phiToPsi order (operatorS nc ng sigmaS mPi phi p) q)
      (calcTotalSource sigmaS mPi order' (fun _ _ _ _ => 0) phi q') := by
  intro g v a c hg ha hc
  simp only [phiToPsi_value ho, calcTotalSource_value ho', operatorS_value, hg, ha, hc, and_self, if_true,
    zero_add]

end

/-- A concrete case: two cells, two angles, one group, executed cell 1 first; the result is exact and the
earlier contents are gone. -/
example : ((nest 2 2 1).reverse.Perm (nest 2 2 1)) ∧
    psiToPhi 2 1 (fun a => (a : ℚ) + 1) (nest 2 2 1).reverse (fun _ _ _ => 7)
      (fun _ _ a c => (10 * c + a : ℚ)) 0 3 1 = 10 * 1 + 11 * 2 := by
  have ho := List.reverse_perm (nest 2 2 1)
  refine ⟨ho, ?_⟩
  rw [psiToPhi_sum ho _ _ _ (by decide) _ (by decide)]
  norm_num [Finset.sum_range_succ]

example : operatorSInPlace 2 1 (fun _ => (8 : ℚ)) 1 (fun _ _ c => c) 0 0 1 = 2 := by
  rw [operatorS_inPlace, operatorS_value]; norm_num

end Verif.Source
