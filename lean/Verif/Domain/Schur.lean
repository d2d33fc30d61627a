import Verif.Domain.Linear

/-!
# The Schur complement solver (src/SweeperSchur.cc)

PETSc's solver is not modelled: it is handed an operator and a right-hand side and returns some
vector. The theorems say what a vector that solves the system gives.
-/
set_option linter.unusedSectionVars false

namespace Verif.Domain
open Classical List
open Verif.Transport Verif.Traverse

variable {K : Type} [Field K] [LinearOrder K]

/-! ### Model -/

/-- An entry `(group, fvrtx, angle, side)` of a boundary array. -/
abbrev Slot := Nat × Fin 3 × Nat × Nat

/-- The entries the loops visit, in order (src/SweeperSchur.cc:83-102, 114-133, 146-165). -/
def slots (R : SweepRun K) (r : Nat) : List Slot :=
  (List.range R.nAngles).flatMap fun angle => (List.range (R.nCells r)).flatMap fun cell =>
    (List.range R.nGroups).flatMap fun group => (List.finRange 4).flatMap fun face =>
      if (R.mesh r).outgoing angle cell face = false ∧ (R.mesh r).adjCell cell face = none ∧
          (R.mesh r).adjRank cell face ≠ none then
        (List.finRange 3).map fun fvrtx => (group, fvrtx, angle, (R.mesh r).side cell face)
      else []

/-- `psiBound(group, fvrtx, angle, side)`. -/
def Slot.get (s : Slot) (b : Bound K) : K := b s.1 s.2.1 s.2.2.1 s.2.2.2

/-- `psiBound(group, fvrtx, angle, side) = v`. -/
def Slot.set (s : Slot) (b : Bound K) (v : K) : Bound K :=
  fun g fv a d => if (g, fv, a, d) = s then v else b g fv a d

/-- `psiBoundToVec` (src/SweeperSchur.cc:78-103). The index is an `int`: more than `2^31 - 1` entries
would overflow it, which the theorems exclude by taking the index as a natural number. -/
def psiBoundToVec (R : SweepRun K) (r : Nat) (b : Bound K) (x : Nat → K) : Nat → K :=
  ((slots R r).foldl (fun p s => (Function.update p.1 p.2 (s.get b), p.2 + 1)) (x, 0)).1

/-- `vecToPsiBound` (src/SweeperSchur.cc:109-134). -/
def vecToPsiBound (R : SweepRun K) (r : Nat) (x : Nat → K) (b : Bound K) : Bound K :=
  ((slots R r).foldl (fun p s => (s.set p.1 (x p.2), p.2 + 1)) (b, 0)).1

/-- `getPsiBoundSize` (src/SweeperSchur.cc:140-168). -/
def psiBoundSize (R : SweepRun K) (r : Nat) : Nat := (slots R r).foldl (fun n _ => n + 1) 0

/-- `Schur` (src/SweeperSchur.cc:188-211) may map `x` to `b`. The boundary array and flux it starts
from are whatever earlier calls left. -/
def SchurOp (R : SweepRun K) (x b : Nat → Nat → K) : Prop :=
  ∃ (bound : Nat → Bound K) (psi0 psi : Nat → Psi K) (bound' : Nat → Bound K) (b0 : Nat → Nat → K),
    LocalSwept R (fun _ _ _ _ _ => 0) psi0 (fun r => vecToPsiBound R r (x r) (bound r)) psi ∧
    ExchangeRun R psi (fun r => vecToPsiBound R r (x r) (bound r)) bound' ∧
    ∀ r < R.nRanks, ∀ i < psiBoundSize R r, b r i = x r i - psiBoundToVec R r (bound' r) (b0 r) i

/-- The right-hand side of `SweeperSchur::sweep` (src/SweeperSchur.cc:282-288). -/
def SchurRhs (R : SweepRun K) (src : Nat → Psi K) (b : Nat → Nat → K) : Prop :=
  ∃ (psi0 psi : Nat → Psi K) (bound' : Nat → Bound K) (b0 : Nat → Nat → K),
    LocalSwept R src psi0 (fun _ _ _ _ _ => 0) psi ∧
    ExchangeRun R psi (fun _ _ _ _ _ => 0) bound' ∧
    ∀ r < R.nRanks, ∀ i < psiBoundSize R r, b r i = psiBoundToVec R r (bound' r) (b0 r) i

/-- The flux recovered from the solution vector (src/SweeperSchur.cc:302-306). -/
def SchurEnd (R : SweepRun K) (src : Nat → Psi K) (x : Nat → Nat → K) (psi : Nat → Psi K) : Prop :=
  ∃ (bound : Nat → Bound K) (psi0 : Nat → Psi K),
    LocalSwept R src psi0 (fun r => vecToPsiBound R r (x r) (bound r)) psi

/-- Equal in all entries of the vectors of all ranks. -/
def SameVec (R : SweepRun K) (x y : Nat → Nat → K) : Prop :=
  ∀ r < R.nRanks, ∀ i < psiBoundSize R r, x r i = y r i

/-! ### Packing -/

theorem psiBoundSize_eq (R : SweepRun K) (r : Nat) : psiBoundSize R r = (slots R r).length := by
  unfold psiBoundSize
  have : ∀ (l : List Slot) n, l.foldl (fun n _ => n + 1) n = n + l.length := by
    intro l
    induction l with
    | nil => simp
    | cons s l ih => intro n; rw [List.foldl_cons, ih, List.length_cons]; omega
  rw [this]; simp

theorem pack_fold (b : Bound K) (l : List Slot) (x : Nat → K) (n : Nat) :
    (l.foldl (fun p s => (Function.update p.1 p.2 (Slot.get s b), p.2 + 1)) (x, n)).1 = fun i =>
      if h : n ≤ i ∧ i < n + l.length then (l[i - n]'(by omega)).get b else x i := by
  induction l generalizing x n with
  | nil => funext i; simp
  | cons s l ih =>
    rw [List.foldl_cons, ih]
    funext i
    by_cases h1 : i = n
    · subst h1
      rw [dif_neg (by omega), dif_pos (by simp)]
      simp
    · by_cases h2 : n ≤ i ∧ i < n + (s :: l).length
      · have h3 : n + 1 ≤ i ∧ i < n + 1 + l.length := by simp only [List.length_cons] at h2; omega
        rw [dif_pos h3, dif_pos h2]
        have : i - n = (i - (n + 1)) + 1 := by omega
        simp [this]
      · have h3 : ¬ (n + 1 ≤ i ∧ i < n + 1 + l.length) := by simp only [List.length_cons] at h2; omega
        rw [dif_neg h3, dif_neg h2, Function.update_of_ne h1]

/-- C44: packing writes exactly the announced number of entries, each the value of its slot. -/
theorem pack_get (R : SweepRun K) (r : Nat) (b : Bound K) (x : Nat → K) (i : Nat) :
    psiBoundToVec R r b x i =
      if h : i < psiBoundSize R r then ((slots R r)[i]'(psiBoundSize_eq R r ▸ h)).get b else x i := by
  unfold psiBoundToVec
  rw [pack_fold]
  simp only [psiBoundSize_eq, Nat.zero_le, true_and, Nat.zero_add, Nat.sub_zero]

theorem unpack_fold (x : Nat → K) (l : List Slot) (b : Bound K) (n : Nat) :
    (∀ s : Slot, s ∉ l → s.get (l.foldl (fun p s => (Slot.set s p.1 (x p.2), p.2 + 1)) (b, n)).1 = s.get b) ∧
    (l.Nodup → ∀ i (hi : i < l.length),
      l[i].get (l.foldl (fun p s => (Slot.set s p.1 (x p.2), p.2 + 1)) (b, n)).1 = x (n + i)) := by
  induction l generalizing b n with
  | nil => exact ⟨fun s _ => rfl, fun _ i hi => by simp at hi⟩
  | cons t l ih =>
    have hget : ∀ s : Slot, s.get (t.set b (x n)) = if s = t then x n else s.get b := fun s => rfl
    refine ⟨fun s hs => ?_, fun hnd i hi => ?_⟩
    · rw [List.foldl_cons, (ih (t.set b (x n)) (n + 1)).1 s fun h => hs (by simp [h]), hget, if_neg]
      exact fun e => hs (by simp [e])
    · rw [List.foldl_cons]
      rw [List.nodup_cons] at hnd
      cases i with
      | zero =>
        rw [List.getElem_cons_zero, (ih (t.set b (x n)) (n + 1)).1 t hnd.1, hget, if_pos rfl]; rfl
      | succ i =>
        rw [List.getElem_cons_succ, (ih (t.set b (x n)) (n + 1)).2 hnd.2 i (by simpa using hi)]
        congr 1; omega

theorem mem_slots {R : SweepRun K} {r g a d : Nat} {fv : Fin 3} : (g, fv, a, d) ∈ slots R r ↔
    ∃ c f, c < R.nCells r ∧ a < R.nAngles ∧ g < R.nGroups ∧ (R.mesh r).outgoing a c f = false ∧
      (R.mesh r).adjCell c f = none ∧ (R.mesh r).adjRank c f ≠ none ∧ d = (R.mesh r).side c f := by
  unfold slots
  simp only [mem_flatMap, mem_range, mem_finRange, true_and]
  constructor
  · rintro ⟨a', ha, c, hc, g', hg, f, h⟩
    split at h
    · rename_i hh
      simp only [mem_map, mem_finRange, true_and, Prod.mk.injEq] at h
      obtain ⟨fv', rfl, rfl, rfl, rfl⟩ := h
      exact ⟨c, f, hc, ha, hg, hh.1, hh.2.1, hh.2.2, rfl⟩
    · simp at h
  · rintro ⟨c, f, hc, ha, hg, h1, h2, h3, rfl⟩
    refine ⟨a, ha, c, hc, g, hg, f, ?_⟩
    rw [if_pos ⟨h1, h2, h3⟩]
    simp

section
variable {R : SweepRun K} {mate : Loc → Option Loc} (L : Linked R.cfg mate)
include L

theorem mate_far {r c : Nat} {f : Face} (hr : r < R.nRanks) (hc : c < R.nCells r)
    (h1 : (R.mesh r).adjCell c f = none) (h2 : (R.mesh r).adjRank c f ≠ none) :
    ∃ y, mate ⟨r, c, f⟩ = some y ∧ y.rank ≠ r := by
  have hin : R.cfg.In ⟨r, c, f⟩ := ⟨hr, hc⟩
  rcases hm : mate ⟨r, c, f⟩ with _ | y
  · exact absurd (L.ext _ hin hm).2 h2
  · refine ⟨y, rfl, fun hyr => ?_⟩
    have := (L.near _ y hin hm hyr).1
    change (R.mesh r).adjCell c f = some y.cell at this
    rw [this] at h1; simp at h1

theorem far_none {x y : Loc} (hx : R.cfg.In x) (hm : mate x = some y) (hne : y.rank ≠ x.rank) :
    (R.mesh x.rank).adjCell x.cell x.face = none ∧ (R.mesh x.rank).adjRank x.cell x.face ≠ none := by
  have := L.far x y hx hm hne
  refine ⟨this.1, ?_⟩
  have h2 := this.2
  change (R.mesh x.rank).adjRank x.cell x.face = some y.rank at h2
  rw [h2]; simp

theorem slots_nodup {r : Nat} (hr : r < R.nRanks) : (slots R r).Nodup := by
  have hside : ∀ c f c' f', c < R.nCells r → c' < R.nCells r →
      (R.mesh r).adjCell c f = none → (R.mesh r).adjRank c f ≠ none →
      (R.mesh r).adjCell c' f' = none → (R.mesh r).adjRank c' f' ≠ none →
      (R.mesh r).side c f = (R.mesh r).side c' f' → c = c' ∧ f = f' := by
    intro c f c' f' hc hc' h1 h2 h1' h2' he
    obtain ⟨y, hy, hyr⟩ := mate_far L hr hc h1 h2
    obtain ⟨y', hy', hyr'⟩ := mate_far L hr hc' h1' h2'
    have := L.side_inj ⟨r, c, f⟩ ⟨r, c', f'⟩ y y' ⟨hr, hc⟩ ⟨hr, hc'⟩ hy hy' hyr hyr' rfl he
    simpa using this
  unfold slots
  rw [List.nodup_flatMap]
  refine ⟨fun a _ => ?_, List.nodup_range.imp ?_⟩
  · rw [List.nodup_flatMap]
    refine ⟨fun c _ => ?_, ?_⟩
    · rw [List.nodup_flatMap]
      refine ⟨fun g _ => ?_, List.nodup_range.imp ?_⟩
      · rw [List.nodup_flatMap]
        refine ⟨fun f _ => ?_, ?_⟩
        · split
          · refine List.Nodup.map ?_ (List.nodup_finRange 3)
            intro v v' h; simpa using h
          · exact List.nodup_nil
        · rename_i hc _
          refine (List.nodup_finRange 4).imp ?_
          intro f f' hne
          simp only [Function.onFun, List.disjoint_left]
          rintro ⟨g1, v1, a1, d1⟩ h h'
          split at h <;> split at h' <;> simp at h h'
          rename_i h1 h2
          rw [List.mem_range] at hc
          exact hne (hside c f c f' hc hc h1.2.1 h1.2.2 h2.2.1 h2.2.2 (h.2.2.trans h'.2.2.symm)).2
      · intro g g' hne
        simp only [Function.onFun, List.disjoint_left, mem_flatMap]
        rintro ⟨g1, v1, a1, d1⟩ ⟨f, -, h⟩ ⟨f', -, h'⟩
        split at h <;> split at h' <;> simp at h h'
        exact hne (h.1.trans h'.1.symm)
    · have : (List.range (R.nCells r)).Pairwise fun c c' => c ≠ c' ∧ c < R.nCells r ∧ c' < R.nCells r := by
        refine List.Pairwise.imp_of_mem ?_ List.nodup_range
        intro c c' hc hc' hne
        exact ⟨hne, List.mem_range.1 hc, List.mem_range.1 hc'⟩
      refine this.imp ?_
      rintro c c' ⟨hne, hc, hc'⟩
      simp only [Function.onFun, List.disjoint_left, mem_flatMap]
      rintro ⟨g1, v1, a1, d1⟩ ⟨g, -, f, -, h⟩ ⟨g', -, f', -, h'⟩
      split at h <;> split at h' <;> simp at h h'
      rename_i h1 h2
      exact hne (hside c f c' f' hc hc' h1.2.1 h1.2.2 h2.2.1 h2.2.2 (h.2.2.trans h'.2.2.symm)).1
  · intro a a' hne
    simp only [Function.onFun, List.disjoint_left, mem_flatMap]
    rintro ⟨g1, v1, a1, d1⟩ ⟨c, -, g, -, f, -, h⟩ ⟨c', -, g', -, f', -, h'⟩
    split at h <;> split at h' <;> simp at h h'
    exact hne (h.2.1.trans h'.2.1.symm)

/-- C44: unpacking puts entry `i` of the vector where packing takes it from, and changes nothing else. -/
theorem unpack_get {r : Nat} (hr : r < R.nRanks) (x : Nat → K) (b : Bound K) :
    (∀ i (hi : i < psiBoundSize R r), ((slots R r)[i]'(psiBoundSize_eq R r ▸ hi)).get
      (vecToPsiBound R r x b) = x i) ∧
    ∀ s : Slot, s ∉ slots R r → s.get (vecToPsiBound R r x b) = s.get b := by
  have := unpack_fold x (slots R r) b 0
  refine ⟨fun i hi => ?_, this.1⟩
  have h := this.2 (slots_nodup L hr) i (psiBoundSize_eq R r ▸ hi)
  rw [Nat.zero_add] at h
  exact h

/-- C44: the vector survives unpacking and packing. -/
theorem pack_unpack {r : Nat} (hr : r < R.nRanks) (x : Nat → K) (b : Bound K) (y : Nat → K) :
    ∀ i < psiBoundSize R r, psiBoundToVec R r (vecToPsiBound R r x b) y i = x i := by
  intro i hi
  rw [pack_get, dif_pos hi]
  exact (unpack_get L hr x b).1 i hi

/-- C44: the boundary values survive packing and unpacking. -/
theorem unpack_pack {r : Nat} (hr : r < R.nRanks) (b b' : Bound K) (y : Nat → K) :
    ∀ s ∈ slots R r, s.get (vecToPsiBound R r (psiBoundToVec R r b y) b') = s.get b := by
  intro s hs
  obtain ⟨i, hi, rfl⟩ := List.mem_iff_getElem.1 hs
  have hi' : i < psiBoundSize R r := by rw [psiBoundSize_eq]; exact hi
  rw [(unpack_get L hr _ b').1 i hi', pack_get, dif_pos hi']

/-- Entries of incoming partition faces are slots. -/
theorem slot_of_face {x y : Loc} {a g : Nat} (fv : Fin 3) (hx : R.cfg.In x) (hm : mate x = some y)
    (hne : y.rank ≠ x.rank) (ha : a < R.nAngles)
    (hin : ¬ (R.view x.rank).isOutgoing a x.cell x.face) (hg : g < R.nGroups) :
    (g, fv, a, (R.view x.rank).side x.cell x.face) ∈ slots R x.rank := by
  rw [mem_slots]
  have := far_none L hx hm hne
  refine ⟨x.cell, x.face, hx.2, ha, hg, ?_, this.1, this.2, rfl⟩
  simpa [SweepRun.mesh] using hin

theorem face_of_slot {r g a d : Nat} {fv : Fin 3} (hr : r < R.nRanks)
    (h : (g, fv, a, d) ∈ slots R r) : ∃ x y, R.cfg.In x ∧ x.rank = r ∧ mate x = some y ∧ y.rank ≠ r ∧
      a < R.nAngles ∧ ¬ (R.view r).isOutgoing a x.cell x.face ∧ g < R.nGroups ∧
      d = (R.view r).side x.cell x.face := by
  rw [mem_slots] at h
  obtain ⟨c, f, hc, ha, hg, h1, h2, h3, rfl⟩ := h
  obtain ⟨y, hy, hyr⟩ := mate_far L hr hc h2 h3
  refine ⟨⟨r, c, f⟩, y, ⟨hr, hc⟩, rfl, hy, hyr, ha, ?_, hg, rfl⟩
  simpa [SweepRun.mesh] using h1

end

end Verif.Domain
