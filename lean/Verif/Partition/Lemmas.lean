import Verif.Partition.Model
import Mathlib.Data.List.Nodup
import Mathlib.Data.List.Perm.Basic
import Mathlib.Data.List.Range
import Mathlib.Tactic.Ring
import Mathlib.Tactic.Linarith

namespace Verif.Partition

/-- Closed form of a chunk boundary. -/
def bnd (N k i : Nat) : Nat := i * (N / k) + min i (N % k)

/-- Size of chunk `i`. -/
def chunk (N k i : Nat) : Nat := if i < N % k then N / k + 1 else N / k

theorem bnd_zero (N k : Nat) : bnd N k 0 = 0 := by simp [bnd]

theorem bnd_succ (N k i : Nat) : bnd N k (i + 1) = bnd N k i + chunk N k i := by
  unfold bnd chunk
  rw [Nat.succ_mul]
  split <;> omega

theorem next_eq (N k i : Nat) : nextBoundary N k (bnd N k i) i = bnd N k (i + 1) := by
  rw [bnd_succ]; unfold nextBoundary chunk; split <;> (simp [*]; try omega)

theorem bnd_last (N k : Nat) (hk : 0 < k) : bnd N k k = N := by
  unfold bnd
  rw [Nat.min_eq_right (Nat.mod_lt _ hk).le]
  exact Nat.div_add_mod N k

theorem bnd_mono (N k : Nat) {i j : Nat} (h : i ≤ j) : bnd N k i ≤ bnd N k j := by
  induction h with
  | refl => exact le_rfl
  | step _ ih => exact ih.trans (by rw [bnd_succ]; omega)

theorem foldl_bnd (f : List Nat → Nat → List Nat) (N k : Nat)
    (hf : ∀ i, f ((List.range (i + 1)).map (bnd N k)) i = (List.range (i + 2)).map (bnd N k))
    (n : Nat) : (List.range n).foldl f [0] = (List.range (n + 1)).map (bnd N k) := by
  induction n with
  | zero => simp [bnd]
  | succ n ih => rw [List.range_succ, List.foldl_append, ih]; simpa using hf n

theorem split_eq (N k : Nat) : splitIntoChunks N k = (List.range (k + 1)).map (bnd N k) := by
  unfold splitIntoChunks
  refine foldl_bnd _ N k (fun i => ?_) k
  rw [List.range_succ (n := i + 1), List.map_append]
  simp [next_eq]

theorem bdry_eq (N k : Nat) : angleBdryIndices N k = (List.range (k + 1)).map (bnd N k) := by
  unfold angleBdryIndices
  refine foldl_bnd _ N k (fun i => ?_) k
  rw [List.range_succ (n := i + 1), List.map_append]
  simp [bnd_succ, chunk]

theorem split_get (N k i : Nat) (h : i ≤ k) : (splitIntoChunks N k)[i]?.getD 0 = bnd N k i := by
  rw [split_eq]
  simp [List.getElem?_range (show i < k + 1 by omega)]

theorem bdry_get (N k i : Nat) (h : i ≤ k) : (angleBdryIndices N k)[i]?.getD 0 = bnd N k i := by
  rw [bdry_eq]
  simp [List.getElem?_range (show i < k + 1 by omega)]

theorem loop_iff (N k a : Nat) : ∀ fuel g, bnd N k g ≤ a → ∀ r,
    angleGroupLoop a (N / k) (N % k) fuel g (bnd N k g) = some r ↔
      g ≤ r ∧ r < g + fuel ∧ bnd N k r ≤ a ∧ a < bnd N k (r + 1) := by
  intro fuel
  induction fuel with
  | zero => intro g _ r; simp [angleGroupLoop]; omega
  | succ n ih =>
    intro g hg r
    have hb : (if g < N % k then bnd N k g + N / k + 1 else bnd N k g + N / k) = bnd N k (g + 1) := by
      rw [bnd_succ]; unfold chunk; split <;> omega
    simp only [angleGroupLoop, hb]
    by_cases h : a < bnd N k (g + 1)
    · rw [if_pos h, Option.some.injEq]
      constructor
      · rintro rfl; exact ⟨le_rfl, by omega, hg, h⟩
      · rintro ⟨h1, _, h3, _⟩
        by_contra hne
        exact absurd (h3.trans_lt h) (not_lt.2 (bnd_mono N k (show g + 1 ≤ r by omega)))
    · rw [if_neg h, ih (g + 1) (not_lt.1 h) r]
      constructor
      · rintro ⟨h1, h2, h3⟩; exact ⟨by omega, by omega, h3⟩
      · rintro ⟨h1, h2, h3, h4⟩
        have : g ≠ r := by rintro rfl; exact h h4
        exact ⟨by omega, by omega, h3, h4⟩

theorem exists_chunk (N k a : Nat) (hk : 0 < k) (ha : a < N) :
    ∃ g < k, bnd N k g ≤ a ∧ a < bnd N k (g + 1) := by
  have h : ∀ n, a < bnd N k n → ∃ g < n, bnd N k g ≤ a ∧ a < bnd N k (g + 1) := by
    intro n
    induction n with
    | zero => intro h; simp [bnd] at h
    | succ n ih =>
      intro h
      by_cases h' : a < bnd N k n
      · obtain ⟨g, h1, h2⟩ := ih h'; exact ⟨g, by omega, h2⟩
      · exact ⟨n, by omega, not_lt.1 h', h⟩
  exact h k (by rw [bnd_last N k hk]; exact ha)

theorem chunk_unique (N k a g g' : Nat) (h1 : bnd N k g ≤ a) (h2 : a < bnd N k (g + 1))
    (h1' : bnd N k g' ≤ a) (h2' : a < bnd N k (g' + 1)) : g = g' := by
  rcases Nat.lt_trichotomy g g' with h | h | h
  · exact absurd (h1'.trans_lt h2) (not_lt.2 (bnd_mono N k (show g + 1 ≤ g' by omega)))
  · exact h
  · exact absurd (h1.trans_lt h2') (not_lt.2 (bnd_mono N k (show g' + 1 ≤ g by omega)))

/-! ## Segments -/

theorem seg_flatMap {α : Type*} (l : List α) (N k o : Nat) : ∀ n,
    (List.range n).flatMap (fun i => (l.drop (o + bnd N k i)).take (bnd N k (i + 1) - bnd N k i))
      = (l.drop o).take (bnd N k n) := by
  intro n
  induction n with
  | zero => simp [bnd]
  | succ n ih =>
    rw [List.range_succ, List.flatMap_append, ih]
    simp only [List.flatMap_cons, List.flatMap_nil, List.append_nil]
    have hm := bnd_mono N k (show n ≤ n + 1 by omega)
    conv_rhs => rw [show bnd N k (n + 1) = bnd N k n + (bnd N k (n + 1) - bnd N k n) by omega]
    rw [List.take_add, List.drop_drop]

/-- `sort` sorts: a permutation in which no later element is less than an earlier one. -/
def IsSort {α : Type*} (lt : α → α → Prop) (sort : List α → List α) : Prop :=
  ∀ l, (sort l).Perm l ∧ (sort l).Pairwise fun a b => ¬ lt b a

variable {K : Type}

/-- Column `i` of the x-sorted list. -/
def seg {α : Type*} (l : List α) (N k i : Nat) : List α :=
  (l.drop (bnd N k i)).take (bnd N k (i + 1) - bnd N k i)

theorem seg_length {α : Type*} (l : List α) (k i : Nat) (hk : 0 < k) (hi : i < k) :
    (seg l l.length k i).length = chunk l.length k i := by
  have h1 := bnd_mono l.length k (show i + 1 ≤ k by omega)
  rw [bnd_last _ _ hk] at h1
  have h2 := bnd_succ l.length k i
  simp only [seg, List.length_take, List.length_drop]
  omega

theorem columns_eq (sortX sortY : List (Centroid K) → List (Centroid K))
    (hX : ∀ l, (sortX l).length = l.length) (hY : ∀ l, (sortY l).length = l.length)
    (nX : Nat) (hn : 0 < nX) (cs : List (Centroid K)) :
    columns sortX sortY nX cs
      = (List.range nX).flatMap fun i => sortY (seg (sortX cs) cs.length nX i) := by
  have key : ∀ n ≤ nX, (List.range n).foldl
      (fun l i => sortRange sortY l ((splitIntoChunks cs.length nX)[i]?.getD 0)
        ((splitIntoChunks cs.length nX)[i + 1]?.getD 0)) (sortX cs)
      = ((List.range n).flatMap fun i => sortY (seg (sortX cs) cs.length nX i))
        ++ (sortX cs).drop (bnd cs.length nX n) ∧
      ((List.range n).flatMap fun i => sortY (seg (sortX cs) cs.length nX i)).length
        = bnd cs.length nX n := by
    intro n
    induction n with
    | zero => intro _; simp [bnd]
    | succ n ih =>
      intro hle
      obtain ⟨ih1, ih2⟩ := ih (by omega)
      have hm := bnd_mono cs.length nX (show n ≤ n + 1 by omega)
      have hN := bnd_mono cs.length nX (show n + 1 ≤ nX by omega)
      rw [bnd_last _ _ hn] at hN
      have hlen : (seg (sortX cs) cs.length nX n).length
          = bnd cs.length nX (n + 1) - bnd cs.length nX n := by
        simp only [seg, List.length_take, List.length_drop, hX]; omega
      constructor
      · rw [List.range_succ, List.foldl_append, ih1]
        simp only [List.foldl_cons, List.foldl_nil, List.flatMap_append, List.flatMap_cons,
          List.flatMap_nil, List.append_nil]
        rw [split_get _ _ _ (by omega), split_get _ _ _ (by omega)]
        unfold sortRange
        rw [List.take_left' ih2, List.drop_left' ih2]
        congr 1
        rw [List.drop_append, ih2, List.drop_eq_nil_of_le (by rw [ih2]; exact hm), List.nil_append,
          List.drop_drop]
        congr 1; omega
      · rw [List.range_succ, List.flatMap_append, List.length_append, ih2]
        simp only [List.flatMap_cons, List.flatMap_nil, List.append_nil, hY, hlen]
        omega
  obtain ⟨h1, _⟩ := key nX le_rfl
  unfold columns
  simp only
  rw [h1, bnd_last _ _ hn, List.drop_eq_nil_of_le (by rw [hX]), List.append_nil]

theorem flatMap_perm {α β : Type*} (l : List α) (f g : α → List β) (h : ∀ a ∈ l, (f a).Perm (g a)) :
    (l.flatMap f).Perm (l.flatMap g) := by
  induction l with
  | nil => simp
  | cons a l ih =>
    simp only [List.flatMap_cons]
    exact (h a (by simp)).append (ih fun b hb => h b (by simp [hb]))

theorem sum_ite_range (n i v : Nat) :
    ((List.range n).map fun x => if x = i then v else 0).sum = if i < n then v else 0 := by
  induction n with
  | zero => simp
  | succ n ih =>
    rw [List.range_succ, List.map_append, List.sum_append, ih]
    by_cases h : i < n
    · have : n ≠ i := by omega
      simp [h, this, show i < n + 1 by omega]
    · by_cases h' : n = i
      · subst h'; simp
      · simp [h, h', show ¬ i < n + 1 by omega]

/-! ## Writes -/

/-- The writes `pv[cell] = part` for a list of pairs. -/
def writes (ps : List (Nat × Nat)) (pv : List Nat) : Option (List Nat) :=
  ps.foldlM (fun pv p => if p.1 < pv.length then some (pv.set p.1 p.2) else none) pv

theorem writes_append (a b : List (Nat × Nat)) (pv : List Nat) :
    writes (a ++ b) pv = (writes a pv).bind (writes b) := by
  unfold writes; rw [List.foldlM_append]; rfl

theorem foldlM_writes {α : Type} (l : List α) (f : α → List (Nat × Nat)) (pv : List Nat) :
    l.foldlM (fun pv a => writes (f a) pv) pv = writes (l.flatMap f) pv := by
  induction l generalizing pv with
  | nil => rfl
  | cons a l ih =>
    rw [List.foldlM_cons, List.flatMap_cons, writes_append]
    have : (fun s' => l.foldlM (fun pv a => writes (f a) pv) s') = writes (l.flatMap f) :=
      funext ih
    exact congrArg _ this

theorem assignRun_eq (arr : List (Centroid K)) (part b n : Nat) (pv : List Nat)
    (h : b + n ≤ arr.length) :
    assignRun arr part b n pv
      = writes (((arr.drop b).take n).map fun c => (c.cell, part)) pv := by
  induction n with
  | zero => simp [assignRun, writes]
  | succ n ih =>
    have ih := ih (by omega)
    unfold assignRun at ih ⊢
    rw [List.range_succ, List.foldlM_append, ih]
    have hlt : n < (arr.drop b).length := by simp; omega
    rw [List.take_add_one, List.getElem?_eq_getElem hlt, Option.toList_some, List.map_append,
      writes_append]
    congr 1
    funext q
    have : arr[b + n]? = some (arr.drop b)[n] := by
      rw [List.getElem_drop, List.getElem?_eq_getElem]
    simp [this, writes]

theorem writes_spec (ps : List (Nat × Nat)) (pv : List Nat) (hr : ∀ p ∈ ps, p.1 < pv.length)
    (hn : (ps.map Prod.fst).Nodup) :
    ∃ pv', writes ps pv = some pv' ∧ pv'.length = pv.length ∧
      (∀ p ∈ ps, pv'[p.1]? = some p.2) ∧ ∀ i, i ∉ ps.map Prod.fst → pv'[i]? = pv[i]? := by
  induction ps generalizing pv with
  | nil => exact ⟨pv, rfl, rfl, by simp, by simp⟩
  | cons p ps ih =>
    obtain ⟨hp, hn'⟩ := List.nodup_cons.1 hn
    have h1 := hr p (by simp)
    obtain ⟨pv', h2, h3, h4, h5⟩ := ih (pv.set p.1 p.2)
      (fun q hq => by rw [List.length_set]; exact hr q (by simp [hq])) hn'
    refine ⟨pv', ?_, by rw [h3, List.length_set], ?_, ?_⟩
    · unfold writes at h2 ⊢
      rw [List.foldlM_cons]
      simp only [h1, if_true]
      exact h2
    · intro q hq
      rcases List.mem_cons.1 hq with rfl | hq
      · rw [h5 _ hp, List.getElem?_set_self h1]
      · exact h4 q hq
    · intro i hi
      simp only [List.map_cons, List.mem_cons, not_or] at hi
      rw [h5 i hi.2, List.getElem?_set_ne (Ne.symm hi.1)]

theorem foldlM_congr' {α β : Type} (l : List α) (f g : β → α → Option β)
    (h : ∀ a ∈ l, ∀ b, f b a = g b a) (b : β) : l.foldlM f b = l.foldlM g b := by
  induction l generalizing b with
  | nil => rfl
  | cons a l ih =>
    rw [List.foldlM_cons, List.foldlM_cons, h a (by simp) b]
    congr 1
    funext c
    exact ih (fun x hx => h x (by simp [hx])) c

/-- The (cell, part) pairs written, in order. -/
def allWrites (nX nY : Nat) (arr : List (Centroid K)) : List (Nat × Nat) :=
  (List.range nX).flatMap fun i => (List.range nY).flatMap fun j =>
    (seg (seg arr arr.length nX i) (chunk arr.length nX i) nY j).map fun c => (c.cell, i * nY + j)

theorem setPartitions_eq (nX nY : Nat) (hX : 0 < nX) (hY : 0 < nY) (arr : List (Centroid K))
    (pv : List Nat) : setPartitions nX nY arr pv = writes (allWrites nX nY arr) pv := by
  unfold setPartitions allWrites
  rw [← foldlM_writes]
  refine foldlM_congr' _ _ _ ?_ _
  intro i hi pv
  have hi := List.mem_range.1 hi
  simp only
  rw [split_get _ _ _ (by omega), split_get _ _ _ (by omega), ← foldlM_writes]
  refine foldlM_congr' _ _ _ ?_ _
  intro j hj pv
  have hj := List.mem_range.1 hj
  rw [split_get _ _ _ (by omega), split_get _ _ _ (by omega)]
  have hc : bnd arr.length nX (i + 1) - bnd arr.length nX i = chunk arr.length nX i := by
    rw [bnd_succ]; omega
  have h1 := bnd_mono arr.length nX (show i + 1 ≤ nX by omega)
  rw [bnd_last _ _ hX] at h1
  have h2 := bnd_mono (chunk arr.length nX i) nY (show j + 1 ≤ nY by omega)
  rw [bnd_last _ _ hY] at h2
  have h3 := bnd_succ arr.length nX i
  have h4 := bnd_mono (chunk arr.length nX i) nY (show j ≤ j + 1 by omega)
  rw [hc, assignRun_eq _ _ _ _ _ (by omega)]
  congr 2
  unfold seg
  rw [List.drop_take, List.take_take, List.drop_drop, hc]
  congr 1
  omega

theorem allWrites_fst (nX nY : Nat) (hX : 0 < nX) (hY : 0 < nY) (arr : List (Centroid K)) :
    (allWrites nX nY arr).map Prod.fst = arr.map Centroid.cell := by
  unfold allWrites
  simp only [List.map_flatMap, List.map_map]
  have inner : ∀ i ∈ List.range nX, ((List.range nY).flatMap fun j =>
      (seg (seg arr arr.length nX i) (chunk arr.length nX i) nY j).map
        (Prod.fst ∘ fun c => (c.cell, i * nY + j)))
      = (seg arr arr.length nX i).map Centroid.cell := by
    intro i hi
    have hi := List.mem_range.1 hi
    have := seg_flatMap (seg arr arr.length nX i) (chunk arr.length nX i) nY 0 nY
    simp only [Nat.zero_add, List.drop_zero] at this
    rw [bnd_last _ _ hY, ← seg_length arr nX i hX hi, List.take_length, ] at this
    rw [seg_length arr nX i hX hi] at this
    conv_rhs => rw [← this]
    rw [List.map_flatMap]
    rfl
  rw [List.flatMap_congr inner]
  have := seg_flatMap arr arr.length nX 0 nX
  simp only [Nat.zero_add, List.drop_zero] at this
  rw [bnd_last _ _ hX, List.take_length] at this
  conv_rhs => rw [← this]
  rw [List.map_flatMap]
  rfl

end Verif.Partition

namespace Verif.Partition

/-! ## Metis -/

/-- Neighbours of a cell in face order. -/
def nbs (cellFaces : Nat → Fin 4 → Nat) (faceCells : Nat → Option Nat × Option Nat) (c : Nat) :
    List Nat :=
  (List.finRange 4).filterMap fun l => metisAdj faceCells c (cellFaces c l)

theorem inner_fold (adj : Fin 4 → Option Nat) (start : Nat) : ∀ (fs : List (Fin 4)) (pre : List Nat)
    (n free : Nat), start + n = pre.length → (fs.filterMap adj).length ≤ free →
    fs.foldlM (fun (p : List Nat × Nat) lface => metisFace (adj lface) start p)
      (pre ++ List.replicate free 0, n)
    = some (pre ++ fs.filterMap adj ++ List.replicate (free - (fs.filterMap adj).length) 0,
        n + (fs.filterMap adj).length) := by
  intro fs
  induction fs with
  | nil => intro pre n free h1 h2; simp
  | cons f fs ih =>
    intro pre n free h1 h2
    rw [List.foldlM_cons]
    cases hf : adj f with
    | none =>
      simp only [List.filterMap_cons, hf, metisFace] at h2 ⊢
      exact ih pre n free h1 h2
    | some c =>
      simp only [List.filterMap_cons, hf, List.length_cons] at h2 ⊢
      have hlt : start + n < (pre ++ List.replicate free 0).length := by simp; omega
      obtain ⟨m, rfl⟩ : ∃ m, free = m + 1 := ⟨free - 1, by omega⟩
      have hset : (pre ++ List.replicate (m + 1) 0).set (start + n) c
          = (pre ++ [c]) ++ List.replicate m 0 := by
        rw [h1, List.set_append_right _ _ (le_refl _), Nat.sub_self, List.replicate_succ,
          List.set_cons_zero]
        simp
      simp only [metisFace, hlt, if_true, hset]
      have := ih (pre ++ [c]) (n + 1) m (by simp; omega) (by omega)
      refine this.trans ?_
      congr 2
      · rw [show m + 1 - ((fs.filterMap adj).length + 1) = m - (fs.filterMap adj).length by omega]
        simp
      · omega

theorem metis_eq (numCells numFaces : Nat) (cellFaces : Nat → Fin 4 → Nat)
    (faceCells : Nat → Option Nat × Option Nat)
    (hfit : ((List.range numCells).flatMap (nbs cellFaces faceCells)).length ≤ 2 * numFaces) :
    metisGraph numCells numFaces cellFaces faceCells = some
      ⟨(List.range (numCells + 1)).map fun i => ((List.range i).flatMap (nbs cellFaces faceCells)).length,
       (List.range numCells).flatMap (nbs cellFaces faceCells) ++ List.replicate (2 * numFaces
        - ((List.range numCells).flatMap (nbs cellFaces faceCells)).length) 0⟩ := by
  unfold metisGraph
  induction numCells with
  | zero => simp
  | succ n ih =>
    have hs : (List.range (n + 1)).flatMap (nbs cellFaces faceCells)
        = (List.range n).flatMap (nbs cellFaces faceCells) ++ nbs cellFaces faceCells n := by
      rw [List.range_succ, List.flatMap_append]; simp
    rw [hs, List.length_append] at hfit
    rw [List.range_succ, List.foldlM_append, ih (by omega)]
    have hstart : ((List.range (n + 1)).map fun i =>
        ((List.range i).flatMap (nbs cellFaces faceCells)).length)[n]?.getD 0
        = ((List.range n).flatMap (nbs cellFaces faceCells)).length := by
      simp
    have hi := inner_fold (fun l => metisAdj faceCells n (cellFaces n l))
      ((List.range n).flatMap (nbs cellFaces faceCells)).length (List.finRange 4)
      ((List.range n).flatMap (nbs cellFaces faceCells)) 0
      (2 * numFaces - ((List.range n).flatMap (nbs cellFaces faceCells)).length) (by simp)
      (by unfold nbs at hfit ⊢; omega)
    simp only [Option.bind_eq_bind, Option.bind_some, List.foldlM_cons, List.foldlM_nil, hstart]
    rw [hi]
    simp only [Option.bind_some, Nat.zero_add]
    congr 2
    · rw [List.range_succ (n := n + 1), List.map_append]
      congr 1
      simp only [List.map_cons, List.map_nil]
      rw [hs, List.length_append]
      rfl
    · rw [← List.range_succ, hs]
      rw [List.length_append]
      congr 2
      unfold nbs
      omega

end Verif.Partition
