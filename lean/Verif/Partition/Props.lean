import Verif.Partition.Lemmas
import Mathlib.Algebra.Order.Field.Rat
import Mathlib.Data.List.Sort
import Mathlib.Data.List.FinRange
import Mathlib.Algebra.BigOperators.Fin

/-!
# Chunks (C17), angle groups (C18), columns (C16) and the Metis graph (C54)
-/
open scoped BigOperators

namespace Verif.Partition

/-! ## C17 -/

/-- C17: `k + 1` boundaries from 0 to `N`, non-decreasing, with chunk sizes `⌊N/k⌋ + 1` for the first
`N mod k` chunks and `⌊N/k⌋` for the others. -/
theorem split_balanced (N k : Nat) (hk : 0 < k) :
    ∃ b : Nat → Nat, splitIntoChunks N k = (List.range (k + 1)).map b ∧
      b 0 = 0 ∧ b k = N ∧ (∀ i j, i ≤ j → b i ≤ b j) ∧
      (∀ i, i < N % k → b (i + 1) = b i + (N + k - 1) / k) ∧
      ∀ i, N % k ≤ i → b (i + 1) = b i + N / k := by
  refine ⟨bnd N k, split_eq N k, bnd_zero N k, bnd_last N k hk, fun i j h => bnd_mono N k h, ?_, ?_⟩
  · intro i hi
    rw [bnd_succ]
    have hceil : (N + k - 1) / k = N / k + 1 := by
      have h1 := Nat.div_add_mod N k
      have h2 := Nat.mod_lt N hk
      rw [Nat.div_eq_iff hk]
      have : (N / k + 1) * k = k * (N / k) + k := by ring
      omega
    rw [hceil]; simp [chunk, hi]
  · intro i hi
    rw [bnd_succ]; simp [chunk, not_lt.2 hi]

/-- The example of the source comment. -/
example : splitIntoChunks 10 3 = [0, 4, 7, 10] := by decide

/-! ## C18 -/

/-- C18: every angle is routed to exactly one valid group, and that is the group whose list of
angles (built separately for the schedules) contains it. -/
theorem angleGroup_valid (nAngles nThreads a : Nat) (hT : 0 < nThreads) (ha : a < nAngles) :
    ∃ g < nThreads, angleGroupIndex nAngles nThreads a = some g ∧
      ∀ g' < nThreads, a ∈ groupAngles nAngles nThreads g' ↔ g' = g := by
  obtain ⟨g, hg, h1, h2⟩ := exists_chunk nAngles nThreads a hT ha
  refine ⟨g, hg, ?_, ?_⟩
  · have := (loop_iff nAngles nThreads a nThreads 0 (by simp [bnd]) g).2 ⟨by omega, by omega, h1, h2⟩
    rw [bnd_zero] at this
    exact this
  · intro g' hg'
    have hm := bnd_mono nAngles nThreads (show g' ≤ g' + 1 by omega)
    have : a ∈ groupAngles nAngles nThreads g' ↔
        bnd nAngles nThreads g' ≤ a ∧ a < bnd nAngles nThreads (g' + 1) := by
      unfold groupAngles
      simp only [bdry_get nAngles nThreads g' (by omega), bdry_get nAngles nThreads (g' + 1) (by omega),
        List.mem_map, List.mem_range]
      constructor
      · rintro ⟨x, hx, rfl⟩; omega
      · rintro ⟨h3, h4⟩; exact ⟨a - bnd nAngles nThreads g', by omega, by omega⟩
    rw [this]
    constructor
    · rintro ⟨h3, h4⟩; exact chunk_unique nAngles nThreads a g' g h3 h4 h1 h2
    · rintro rfl; exact ⟨h1, h2⟩

/-- C18: the groups are consecutive intervals which together list all angles in order, and their
sizes differ by at most one. -/
theorem angleGroup_cover (nAngles nThreads : Nat) (hT : 0 < nThreads) :
    (List.range nThreads).flatMap (groupAngles nAngles nThreads) = List.range nAngles ∧
    ∀ g < nThreads, ∀ g' < nThreads, (groupAngles nAngles nThreads g).length ≤
      (groupAngles nAngles nThreads g').length + 1 := by
  have hga : ∀ g ∈ List.range nThreads, groupAngles nAngles nThreads g
      = ((List.range nAngles).drop (0 + bnd nAngles nThreads g)).take
          (bnd nAngles nThreads (g + 1) - bnd nAngles nThreads g) := by
    intro g hg
    have hg := List.mem_range.1 hg
    have h1 := bnd_mono nAngles nThreads (show g + 1 ≤ nThreads by omega)
    rw [bnd_last _ _ hT] at h1
    unfold groupAngles
    simp only [bdry_get nAngles nThreads g (by omega), bdry_get nAngles nThreads (g + 1) (by omega)]
    refine List.ext_getElem (by simp; omega) ?_
    intro i h3 h4
    simp
    omega
  constructor
  · rw [List.flatMap_congr hga, seg_flatMap, bnd_last _ _ hT]
    simp
  · intro g hg g' hg'
    unfold groupAngles
    simp only [bdry_get nAngles nThreads g (by omega), bdry_get nAngles nThreads (g + 1) (by omega),
      bdry_get nAngles nThreads g' (by omega), bdry_get nAngles nThreads (g' + 1) (by omega),
      List.length_map, List.length_range, bnd_succ, chunk]
    split <;> split <;> omega

/-- The example of the source comment: 20 angles on 3 threads; and more threads than angles. -/
example : (List.range 20).map (angleGroupIndex 20 3)
      = List.replicate 7 (some 0) ++ List.replicate 7 (some 1) ++ List.replicate 6 (some 2) ∧
    (List.range 2).map (angleGroupIndex 2 5) = [some 0, some 1] := by decide

/-! ## C16 -/

variable {K : Type}

/-- The mean of a coordinate over the four nodes of a cell: the coordinate of its centroid. -/
def mean4 [Field K] (v : Nat → K) (n : Fin 4 → Nat) : K := (∑ i, v (n i)) / 4

theorem centroid_x [Field K] (cellNodes : Nat → Fin 4 → Nat) (nx ny : Nat → K) (c : Nat) :
    (centroidOf cellNodes nx ny c).x = mean4 nx (cellNodes c) := by
  simp [centroidOf, mean4, Fin.sum_univ_four]

theorem centroid_y [Field K] (cellNodes : Nat → Fin 4 → Nat) (nx ny : Nat → K) (c : Nat) :
    (centroidOf cellNodes nx ny c).y = mean4 ny (cellNodes c) := by
  simp [centroidOf, mean4, Fin.sum_univ_four]

/-- C16: with any sorting functions and any positive numbers of columns and rows the partitioner
never reads or writes out of range; every cell gets a partition `< nX * nY`; partition `(i, j)` has
the size given by splitting the cells into `nX` chunks and chunk `i` into `nY`; a cell in an earlier
column has centroid `x` at most that of a cell in a later one; within a column the same holds for
`y` and rows. -/
theorem partition_columns [Field K] [LinearOrder K]
    (sortX sortY : List (Centroid K) → List (Centroid K))
    (hsX : IsSort (fun a b => a.x < b.x) sortX) (hsY : IsSort (fun a b => a.y < b.y) sortY)
    (nX nY numCells : Nat) (hX : 0 < nX) (hY : 0 < nY) (cellNodes : Nat → Fin 4 → Nat)
    (nx ny : Nat → K) (pv : List Nat) (hpv : pv.length = numCells) :
    ∃ pv', partitionMesh sortX sortY nX nY numCells cellNodes nx ny pv = some pv' ∧
      pv'.length = numCells ∧
      (∀ p ∈ pv', p < nX * nY) ∧
      (∀ i < nX, ∀ j < nY, pv'.count (i * nY + j) = chunk (chunk numCells nX i) nY j) ∧
      (∀ c d p q, pv'[c]? = some p → pv'[d]? = some q → p / nY < q / nY →
        mean4 nx (cellNodes c) ≤ mean4 nx (cellNodes d)) ∧
      (∀ c d p q, pv'[c]? = some p → pv'[d]? = some q → p / nY = q / nY → p < q →
        mean4 ny (cellNodes c) ≤ mean4 ny (cellNodes d)) := by
  simp only [← centroid_x cellNodes nx ny, ← centroid_y cellNodes nx ny]
  set cs := (List.range numCells).map (centroidOf cellNodes nx ny) with hcs
  have hlen : cs.length = numCells := by simp [hcs]
  have hlX : ∀ l, (sortX l).length = l.length := fun l => (hsX l).1.length_eq
  have hlY : ∀ l, (sortY l).length = l.length := fun l => (hsY l).1.length_eq
  set arr := columns sortX sortY nX cs with harr
  have hcol := columns_eq sortX sortY hlX hlY nX hX cs
  rw [← harr] at hcol
  -- the final order is a permutation of the cells
  have hperm : arr.Perm cs := by
    rw [hcol]
    refine (flatMap_perm _ _ _ fun i _ => (hsY _).1).trans ?_
    have := seg_flatMap (sortX cs) cs.length nX 0 nX
    simp only [Nat.zero_add, List.drop_zero] at this
    rw [bnd_last _ _ hX, ← hlX, List.take_length, hlX] at this
    unfold seg
    rw [this]
    exact (hsX cs).1
  have hal : arr.length = numCells := by rw [hperm.length_eq, hlen]
  have hcell : (cs.map Centroid.cell) = List.range numCells := by
    rw [hcs, List.map_map]
    exact (List.map_congr_left fun c _ => rfl).trans (List.map_id _)
  have hcells : (arr.map Centroid.cell).Perm (List.range numCells) := by
    rw [← hcell]; exact hperm.map _
  have hmem : ∀ c ∈ arr, c = centroidOf cellNodes nx ny c.cell := by
    intro c hc
    obtain ⟨n, _, rfl⟩ := List.mem_map.1 (hperm.mem_iff.1 hc)
    rfl
  have hfst := allWrites_fst nX nY hX hY arr
  obtain ⟨pv', h1, h2, h3, _⟩ := writes_spec (allWrites nX nY arr) pv
    (by
      intro p hp
      have : p.1 ∈ arr.map Centroid.cell := by rw [← hfst]; exact List.mem_map_of_mem hp
      rw [hpv]; exact List.mem_range.1 (hcells.mem_iff.1 this))
    (by rw [hfst]; exact hcells.nodup_iff.2 List.nodup_range)
  -- the lists of columns and rows
  set R : Nat → Nat → List (Centroid K) := fun i j =>
    seg (seg arr arr.length nX i) (chunk arr.length nX i) nY j with hR
  have hlook : ∀ c p, pv'[c]? = some p → ∃ i < nX, ∃ j < nY, p = i * nY + j ∧
      centroidOf cellNodes nx ny c ∈ R i j := by
    intro c p hp
    have hc : c < numCells := by
      obtain ⟨h, _⟩ := List.getElem?_eq_some_iff.1 hp
      rw [← hpv, ← h2]; exact h
    have : c ∈ (allWrites nX nY arr).map Prod.fst := by
      rw [hfst]; exact hcells.mem_iff.2 (List.mem_range.2 hc)
    obtain ⟨⟨c', p'⟩, hw, rfl⟩ := List.mem_map.1 this
    have hpp := h3 _ hw
    rw [hp] at hpp
    obtain rfl := Option.some.inj hpp
    simp only [allWrites, List.mem_flatMap, List.mem_map, List.mem_range] at hw
    obtain ⟨i, hi, j, hj, cc, hcc, he⟩ := hw
    obtain ⟨rfl, rfl⟩ := Prod.mk.inj he
    refine ⟨i, hi, j, hj, rfl, ?_⟩
    have hin : cc ∈ arr := List.mem_of_mem_drop (List.mem_of_mem_take
      (List.mem_of_mem_drop (List.mem_of_mem_take hcc)))
    rw [← hmem cc hin]; exact hcc
  have hdiv : ∀ i j, j < nY → (i * nY + j) / nY = i := by
    intro i j hj
    rw [Nat.mul_comm, Nat.mul_add_div hY, Nat.div_eq_of_lt hj, Nat.add_zero]
  -- column i of the final order is the sorted column of the x order
  have hsegcol : ∀ i < nX, seg arr arr.length nX i = sortY (seg (sortX cs) cs.length nX i) := by
    have key : ∀ n ≤ nX, ((List.range n).flatMap fun i => sortY (seg (sortX cs) cs.length nX i)).length
        = bnd numCells nX n := by
      intro n
      induction n with
      | zero => intro _; simp [bnd]
      | succ n ih =>
        intro hle
        have e := seg_length (sortX cs) nX n hX (by omega)
        rw [hlX] at e
        rw [List.range_succ, List.flatMap_append, List.length_append, ih (by omega), bnd_succ]
        simp only [List.flatMap_cons, List.flatMap_nil, List.append_nil, hlY]
        rw [e, hlen]
    intro i hi
    have hsplit : arr = ((List.range i).flatMap fun i => sortY (seg (sortX cs) cs.length nX i))
        ++ (sortY (seg (sortX cs) cs.length nX i)
        ++ ((List.range (nX - i - 1)).map (· + (i + 1))).flatMap fun i => sortY (seg (sortX cs) cs.length nX i)) := by
      have hr : List.range nX = List.range i ++ ([i] ++ (List.range (nX - i - 1)).map (· + (i + 1))) := by
        refine List.ext_getElem (by simp; omega) ?_
        intro n h4 h5
        simp only [List.getElem_range, List.getElem_append, List.length_range, List.getElem_map,
          List.length_singleton, List.getElem_singleton]
        split <;> [skip; split] <;> omega
      rw [hcol]
      conv_lhs => rw [hr, List.flatMap_append, List.flatMap_append]
      simp
    have e := seg_length (sortX cs) nX i hX hi
    rw [hlX] at e
    conv_lhs => unfold seg; rw [hal]
    conv_lhs => rw [hsplit]
    rw [List.drop_left' (key i (by omega)), List.take_left']
    rw [hlY, e, hlen, bnd_succ]; omega
  refine ⟨pv', ?_, h2.trans hpv, ?_, ?_, ?_, ?_⟩
  · rw [partitionMesh, setPartitions_eq nX nY hX hY]; exact h1
  · intro p hp
    obtain ⟨c, hc⟩ := List.mem_iff_getElem?.1 hp
    obtain ⟨i, hi, j, hj, rfl, _⟩ := hlook c p hc
    calc i * nY + j < i * nY + nY := by omega
      _ = (i + 1) * nY := by ring
      _ ≤ nX * nY := Nat.mul_le_mul_right _ hi
  · intro i hi j hj
    -- the values in the order of the cells are a permutation of the values in the final order
    have hvals : pv'.Perm ((allWrites nX nY arr).map Prod.snd) := by
      have e1 : pv' = (List.range numCells).map fun c => pv'[c]?.getD 0 := by
        refine List.ext_getElem (by simp [h2, hpv]) ?_
        intro n h4 h5
        simp [List.getElem?_eq_getElem h4]
      have e2 : (allWrites nX nY arr).map Prod.snd
          = (arr.map Centroid.cell).map fun c => pv'[c]?.getD 0 := by
        rw [← hfst, List.map_map]
        refine List.map_congr_left fun p hp => ?_
        simp [h3 p hp]
      rw [e2]
      conv_lhs => rw [e1]
      exact (hcells.symm.map _)
    rw [hvals.count_eq]
    unfold allWrites
    simp only [List.map_flatMap, List.map_map]
    have hrow : ∀ i' j', (seg (seg arr arr.length nX i') (chunk arr.length nX i') nY j').map
        (Prod.snd ∘ fun c => (c.cell, i' * nY + j'))
        = List.replicate (R i' j').length (i' * nY + j') := by
      intro i' j'
      rw [List.eq_replicate_iff]
      refine ⟨by simp [hR], ?_⟩
      intro b hb
      obtain ⟨c, _, rfl⟩ := List.mem_map.1 hb
      rfl
    simp only [hrow, List.count_flatMap]
    have hone : ∀ i' ∈ List.range nX, (List.count (i * nY + j) ∘ fun i' =>
        (List.range nY).flatMap fun j' => List.replicate (R i' j').length (i' * nY + j')) i'
        = if i' = i then (R i j).length else 0 := by
      intro i' _
      simp only [Function.comp, List.count_flatMap]
      have hj' : ∀ j' ∈ List.range nY, (List.count (i * nY + j) ∘ fun j' =>
          List.replicate (R i' j').length (i' * nY + j')) j'
          = if i' = i ∧ j' = j then (R i j).length else 0 := by
        intro j' hj'
        have hj' := List.mem_range.1 hj'
        simp only [Function.comp, List.count_replicate]
        by_cases h : i' = i ∧ j' = j
        · obtain ⟨rfl, rfl⟩ := h; simp
        · rw [if_neg h, if_neg]
          intro he
          have he : i' * nY + j' = i * nY + j := by simpa using he
          have hi2 : i' = i := by rw [← hdiv i' j' hj', he, hdiv i j hj]
          subst hi2
          exact h ⟨rfl, by omega⟩
      rw [List.map_congr_left hj']
      by_cases h : i' = i
      · subst h
        simp only [true_and, if_true]
        rw [sum_ite_range, if_pos hj]
      · simp [h]
    rw [List.map_congr_left hone, sum_ite_range, if_pos hi]
    have hl : (R i j).length = chunk (chunk numCells nX i) nY j := by
      have e1 := seg_length arr nX i hX hi
      have e2 := seg_length (seg arr arr.length nX i) nY j hY hj
      rw [e1] at e2
      rw [hR]; simp only
      rw [e2, hal]
    exact hl
  · intro c d p q hp hq hlt
    obtain ⟨i, hi, j, hj, rfl, hc⟩ := hlook c p hp
    obtain ⟨i', hi', j', hj', rfl, hd⟩ := hlook d q hq
    rw [hdiv i j hj, hdiv i' j' hj'] at hlt
    have hc' : centroidOf cellNodes nx ny c ∈ seg (sortX cs) cs.length nX i := by
      rw [← (hsY _).1.mem_iff, ← hsegcol i hi]
      exact List.mem_of_mem_drop (List.mem_of_mem_take hc)
    have hd' : centroidOf cellNodes nx ny d ∈ seg (sortX cs) cs.length nX i' := by
      rw [← (hsY _).1.mem_iff, ← hsegcol i' hi']
      exact List.mem_of_mem_drop (List.mem_of_mem_take hd)
    have hpw := (hsX cs).2
    have hm : bnd cs.length nX (i + 1) ≤ bnd cs.length nX i' := bnd_mono _ _ (by omega)
    have hm2 : bnd cs.length nX i ≤ bnd cs.length nX (i + 1) := bnd_mono _ _ (by omega)
    rw [← List.take_append_drop (bnd cs.length nX (i + 1)) (sortX cs), List.pairwise_append] at hpw
    refine not_lt.1 (hpw.2.2 _ ?_ _ ?_)
    · unfold seg at hc'
      rw [List.take_drop, show bnd cs.length nX i + (bnd cs.length nX (i + 1) - bnd cs.length nX i)
        = bnd cs.length nX (i + 1) by omega] at hc'
      exact List.mem_of_mem_drop hc'
    · have := List.mem_of_mem_take hd'
      rw [show bnd cs.length nX i' = bnd cs.length nX (i + 1)
        + (bnd cs.length nX i' - bnd cs.length nX (i + 1)) by omega, ← List.drop_drop] at this
      exact List.mem_of_mem_drop this
  · intro c d p q hp hq heq hlt
    obtain ⟨i, hi, j, hj, rfl, hc⟩ := hlook c p hp
    obtain ⟨i', hi', j', hj', rfl, hd⟩ := hlook d q hq
    rw [hdiv i j hj, hdiv i' j' hj'] at heq
    subst heq
    have hjj : j < j' := by omega
    have hpw := (hsY (seg (sortX cs) cs.length nX i)).2
    rw [← hsegcol i hi] at hpw
    set N := chunk arr.length nX i
    have hm : bnd N nY (j + 1) ≤ bnd N nY j' := bnd_mono _ _ (by omega)
    have hm2 : bnd N nY j ≤ bnd N nY (j + 1) := bnd_mono _ _ (by omega)
    rw [← List.take_append_drop (bnd N nY (j + 1)) (seg arr arr.length nX i),
      List.pairwise_append] at hpw
    refine not_lt.1 (hpw.2.2 _ ?_ _ ?_)
    · simp only [hR] at hc
      rw [seg, List.take_drop, show bnd N nY j + (bnd N nY (j + 1) - bnd N nY j)
        = bnd N nY (j + 1) by omega] at hc
      exact List.mem_of_mem_drop hc
    · simp only [hR] at hd
      have := List.mem_of_mem_take hd
      rw [show bnd N nY j' = bnd N nY (j + 1) + (bnd N nY j' - bnd N nY (j + 1)) by omega,
        ← List.drop_drop] at this
      exact List.mem_of_mem_drop this

/-- Sorting functions exist. -/
example : IsSort (fun a b : Centroid ℚ => a.x < b.x) (fun l => l.mergeSort fun a b => a.x ≤ b.x) := by
  intro l
  refine ⟨List.mergeSort_perm _ _, ?_⟩
  have := List.pairwise_mergeSort (le := fun a b : Centroid ℚ => decide (a.x ≤ b.x))
    (by intro a b c h1 h2; simp at *; exact h1.trans h2)
    (by intro a b; simp; exact le_total _ _) l
  exact this.imp fun h => by simpa using h

/-- Five cells, two columns of two rows (cell `c` has its nodes at `(5 - c, c mod 2)`). -/
example : partitionMesh (K := ℚ) (fun l => l.insertionSort fun a b => a.x ≤ b.x)
    (fun l => l.insertionSort fun a b => a.y ≤ b.y) 2 2 5 (fun c _ => c)
    (fun n => 5 - (n : ℚ)) (fun n => ((n % 2 : Nat) : ℚ)) [0, 0, 0, 0, 0] = some [2, 3, 0, 1, 0] := by decide +kernel

/-! ## C54 -/

/-- A well-formed serial mesh: faces of cells exist, the four faces of a cell differ, and a face
lists exactly the (one or two, different) cells it bounds. -/
structure MeshOK (numCells numFaces : Nat) (cellFaces : Nat → Fin 4 → Nat)
    (faceCells : Nat → Option Nat × Option Nat) : Prop where
  face_lt : ∀ c < numCells, ∀ l, cellFaces c l < numFaces
  face_inj : ∀ c < numCells, ∀ l l', cellFaces c l = cellFaces c l' → l = l'
  lists : ∀ c < numCells, ∀ l, (faceCells (cellFaces c l)).1 = some c ∨
    (faceCells (cellFaces c l)).2 = some c
  listed : ∀ f < numFaces, ∀ c, (faceCells f).1 = some c ∨ (faceCells f).2 = some c →
    c < numCells ∧ ∃ l, cellFaces c l = f
  differ : ∀ f < numFaces, ∀ c, ¬ ((faceCells f).1 = some c ∧ (faceCells f).2 = some c)

/-- The other cell of a face, from the mesh alone. -/
def Across (faceCells : Nat → Option Nat × Option Nat) (f c c' : Nat) : Prop :=
  faceCells f = (some c, some c') ∨ faceCells f = (some c', some c)

theorem metisAdj_iff {numCells numFaces : Nat} {cellFaces : Nat → Fin 4 → Nat}
    {faceCells : Nat → Option Nat × Option Nat} (h : MeshOK numCells numFaces cellFaces faceCells)
    {c : Nat} (hc : c < numCells) (l : Fin 4) (c' : Nat) :
    metisAdj faceCells c (cellFaces c l) = some c' ↔ Across faceCells (cellFaces c l) c c' := by
  have h1 := h.lists c hc l
  have h2 := h.differ _ (h.face_lt c hc l) c
  unfold metisAdj Across
  generalize faceCells (cellFaces c l) = p at h1 h2 ⊢
  obtain ⟨a, b⟩ := p
  simp only at h1 h2 ⊢
  by_cases ha : a = some c
  · subst ha
    simp only [if_true, Prod.mk.injEq, true_and]
    constructor
    · exact Or.inl
    · rintro (h3 | ⟨h3, h4⟩)
      · exact h3
      · exact absurd ⟨rfl, h4⟩ h2
  · have hb : b = some c := h1.resolve_left ha
    subst hb
    simp only [ha, if_false, Prod.mk.injEq]
    constructor
    · intro h3; exact Or.inr ⟨h3, by simp⟩
    · rintro (⟨h3, h4⟩ | ⟨h3, _⟩)
      · first | exact absurd h3 ha | exact absurd h3 (by simp)
      · exact h3

/-- The lists fit the allocation: each (cell, face) pair with a neighbour uses its own of the two
slots of the face. -/
theorem nbs_fit {numCells numFaces : Nat} {cellFaces : Nat → Fin 4 → Nat}
    {faceCells : Nat → Option Nat × Option Nat} (h : MeshOK numCells numFaces cellFaces faceCells) :
    ((List.range numCells).flatMap (nbs cellFaces faceCells)).length ≤ 2 * numFaces := by
  -- list of (face, slot)
  set slots : List (Nat × Bool) := (List.range numCells).flatMap fun c =>
    ((List.finRange 4).filter fun l => (metisAdj faceCells c (cellFaces c l)).isSome).map fun l =>
      (cellFaces c l, decide ((faceCells (cellFaces c l)).1 = some c)) with hslots
  have hlen : ((List.range numCells).flatMap (nbs cellFaces faceCells)).length = slots.length := by
    rw [hslots, List.length_flatMap, List.length_flatMap]
    congr 1
    refine List.map_congr_left fun c _ => ?_
    simp only [nbs, List.length_map]
    rw [List.length_filterMap_eq_countP, List.countP_eq_length_filter]
  have hnd : slots.Nodup := by
    rw [hslots, List.nodup_flatMap]
    constructor
    · intro c hc
      refine List.Nodup.map_on ?_ ((List.nodup_finRange 4).filter _)
      intro l _ l' _ he
      exact h.face_inj c (List.mem_range.1 hc) l l' (Prod.mk.inj he).1
    · refine List.Nodup.pairwise_of_forall_ne List.nodup_range ?_
      intro c hc d hd hne p hp hq
      obtain ⟨l, _, rfl⟩ := List.mem_map.1 hp
      obtain ⟨l', _, he⟩ := List.mem_map.1 hq
      obtain ⟨e1, e2⟩ := Prod.mk.inj he
      have hc := List.mem_range.1 hc
      have hd := List.mem_range.1 hd
      have h1 := h.lists c hc l
      have h2 := h.lists d hd l'
      rw [e1] at h2 e2
      rw [decide_eq_decide] at e2
      rcases h1 with h1 | h1
      · have := e2.2 h1
        rw [h1] at this
        exact hne (Option.some.inj this)
      · rcases h2 with h2 | h2
        · have := e2.1 h2
          rw [h2] at this
          exact hne (Option.some.inj this).symm
        · rw [h1] at h2; exact hne (Option.some.inj h2)
  have hsub : slots ⊆ (List.range numFaces).flatMap fun f => [(f, true), (f, false)] := by
    intro p hp
    rw [hslots] at hp
    obtain ⟨c, hc, hp⟩ := List.mem_flatMap.1 hp
    obtain ⟨l, _, rfl⟩ := List.mem_map.1 hp
    refine List.mem_flatMap.2 ⟨cellFaces c l, List.mem_range.2 (h.face_lt c (List.mem_range.1 hc) l), ?_⟩
    cases decide ((faceCells (cellFaces c l)).1 = some c) <;> simp
  rw [hlen]
  refine (List.subperm_of_subset hnd hsub).length_le.trans ?_
  rw [List.length_flatMap]
  simp [Nat.mul_comm]

/-- C54: on a well-formed mesh no write is outside the allocation; entries `xadj[c] .. xadj[c+1]` of
the adjacency array list exactly the cells across the faces of `c` that have one, in face order; and
the lists are symmetric. -/
theorem metis_graph (numCells numFaces : Nat) (cellFaces : Nat → Fin 4 → Nat)
    (faceCells : Nat → Option Nat × Option Nat) (h : MeshOK numCells numFaces cellFaces faceCells) :
    ∃ m, metisGraph numCells numFaces cellFaces faceCells = some m ∧
      m.xadj.length = numCells + 1 ∧ m.adjncy.length = 2 * numFaces ∧
      ∃ nb : Nat → List Nat,
        (∀ c < numCells, ∃ a b, m.xadj[c]? = some a ∧ m.xadj[c + 1]? = some b ∧
          a ≤ b ∧ b ≤ 2 * numFaces ∧ (m.adjncy.drop a).take (b - a) = nb c) ∧
        (∀ c < numCells, ∃ nbf : Fin 4 → Option Nat,
          nb c = (List.finRange 4).filterMap nbf ∧
          ∀ l c', nbf l = some c' ↔ Across faceCells (cellFaces c l) c c') ∧
        ∀ c < numCells, ∀ c', c' ∈ nb c → c' < numCells ∧ c ∈ nb c' := by
  have hfit := nbs_fit h
  refine ⟨_, metis_eq _ _ _ _ hfit, by simp, by
    rw [List.length_append, List.length_replicate]; omega, nbs cellFaces faceCells, ?_, ?_, ?_⟩
  · intro c hc
    have hsplit : ∀ k, (List.range (k + 1)).flatMap (nbs cellFaces faceCells)
        = (List.range k).flatMap (nbs cellFaces faceCells) ++ nbs cellFaces faceCells k := by
      intro k; rw [List.range_succ, List.flatMap_append]; simp
    have hpre : ∀ k, c + 1 ≤ k → ∃ t, (List.range k).flatMap (nbs cellFaces faceCells)
        = (List.range (c + 1)).flatMap (nbs cellFaces faceCells) ++ t := by
      intro k hk
      induction hk with
      | refl => exact ⟨[], by simp⟩
      | @step m _ ih =>
        obtain ⟨t, ht⟩ := ih
        exact ⟨t ++ nbs cellFaces faceCells m, by rw [hsplit, ht]; simp⟩
    obtain ⟨t, ht⟩ := hpre numCells hc
    have hget : ∀ k ≤ numCells, ((List.range (numCells + 1)).map fun i =>
        ((List.range i).flatMap (nbs cellFaces faceCells)).length)[k]?
        = some ((List.range k).flatMap (nbs cellFaces faceCells)).length := by
      intro k hk
      rw [List.getElem?_map, List.getElem?_range (by omega)]; rfl
    refine ⟨_, _, hget c (by omega), hget (c + 1) hc, ?_, ?_, ?_⟩
    · rw [hsplit, List.length_append]; omega
    · rw [ht, List.length_append] at hfit; omega
    · simp only
      rw [ht, hsplit, List.length_append]
      simp only [List.append_assoc]
      rw [List.drop_left, Nat.add_sub_cancel_left, List.take_left]
  · intro c hc
    exact ⟨_, rfl, fun l c' => metisAdj_iff h hc l c'⟩
  · intro c hc c' hc'
    obtain ⟨l, _, hl⟩ := List.mem_filterMap.1 hc'
    have hA := (metisAdj_iff h hc l c').1 hl
    have hlist : (faceCells (cellFaces c l)).1 = some c' ∨ (faceCells (cellFaces c l)).2 = some c' := by
      rcases hA with hA | hA <;> rw [hA] <;> simp
    obtain ⟨hlt, l', hl'⟩ := h.listed _ (h.face_lt c hc l) c' hlist
    refine ⟨hlt, List.mem_filterMap.2 ⟨l', List.mem_finRange l', ?_⟩⟩
    rw [metisAdj_iff h hlt, hl']
    exact hA.symm

/-- Two cells sharing face 0. -/
example : MeshOK 2 7 (fun c l => if l = 0 then 0 else 3 * c + l)
    (fun f => if f = 0 then (some 0, some 1) else if f < 4 then (some 0, none) else (some 1, none)) where
  face_lt := by decide
  face_inj := by decide
  lists := by decide
  listed := by
    intro f hf c hc
    have : c = 0 ∨ c = 1 := by
      split_ifs at hc <;> simp at hc <;> omega
    rcases this with rfl | rfl <;> revert f <;> decide
  differ := by
    intro f hf c hc
    split_ifs at hc <;> simp at hc
    omega

end Verif.Partition
