import Verif.Priorities.Props

/-!
# Inter-angle priorities and the whole of `calcPriorities`
-/
set_option linter.unusedSectionVars false

namespace Verif.Priorities
open Classical List Verif.Traverse

theorem addTo_get (nCells angle x : Nat) (p : Table) (c a : Nat) :
    addTo nCells angle x p c a = if c < nCells ∧ a = angle then u64 (p c a + x) else p c a := by
  unfold addTo
  have key : ∀ n, ((List.range n).foldl (fun p c => put p c angle (u64 (p c angle + x))) p) c a =
      if c < n ∧ a = angle then u64 (p c a + x) else p c a := by
    intro n
    induction n with
    | zero => simp
    | succ n ih =>
      rw [List.range_succ, List.foldl_append]
      simp only [List.foldl_cons, List.foldl_nil]
      by_cases h : c = n ∧ a = angle
      · obtain ⟨rfl, rfl⟩ := h
        rw [put_same]
        simp only [lt_irrefl, false_and, if_false] at ih
        rw [ih]
        simp
      · rw [put_ne _ _ (by tauto), ih]
        by_cases h1 : c < n ∧ a = angle
        · rw [if_pos h1, if_pos ⟨by omega, h1.2⟩]
        · rw [if_neg h1, if_neg]
          rintro ⟨h2, h3⟩
          have : c ≠ n := fun e => h ⟨e, h3⟩
          exact h1 ⟨by omega, h3⟩
  exact key nCells

theorem copyTable_get (nAngles nCells : Nat) (v p : Table) (c a : Nat) :
    copyTable nAngles nCells v p c a = if c < nCells ∧ a < nAngles then v c a else p c a := by
  have inner : ∀ n a' (p : Table), ((List.range n).foldl (fun p c => put p c a' (v c a')) p) c a =
      if c < n ∧ a = a' then v c a else p c a := by
    intro n a' p
    induction n with
    | zero => simp
    | succ n ih =>
      rw [List.range_succ, List.foldl_append]
      simp only [List.foldl_cons, List.foldl_nil]
      by_cases h : c = n ∧ a = a'
      · obtain ⟨rfl, rfl⟩ := h
        rw [put_same]
        simp
      · rw [put_ne _ _ (by tauto), ih]
        by_cases h1 : c < n ∧ a = a'
        · rw [if_pos h1, if_pos ⟨by omega, h1.2⟩]
        · rw [if_neg h1, if_neg]
          rintro ⟨h2, h3⟩
          have : c ≠ n := fun e => h ⟨e, h3⟩
          exact h1 ⟨by omega, h3⟩
  unfold copyTable
  induction nAngles with
  | zero => simp
  | succ n ih =>
    rw [List.range_succ, List.foldl_append]
    simp only [List.foldl_cons, List.foldl_nil]
    rw [inner, ih]
    by_cases h : c < nCells
    · by_cases h1 : a = n
      · subst h1; simp [h]
      · by_cases h2 : a < n
        · simp [h, h1, h2, show a < n + 1 by omega]
        · simp [h, h1, h2, show ¬ a < n + 1 by omega]
    · simp [h]

/-- Adding offsets to distinct angles. -/
theorem addTo_fold (nCells : Nat) (off : Nat → Nat) (l : List Nat) (hl : l.Nodup) (p : Table) {c a : Nat}
    (hc : c < nCells) (ha : a ∈ l) :
    (l.foldl (fun p a => addTo nCells a (off a) p) p) c a = u64 (p c a + off a) := by
  have out : ∀ (l : List Nat) (p : Table), a ∉ l →
      (l.foldl (fun p a => addTo nCells a (off a) p) p) c a = p c a := by
    intro l
    induction l with
    | nil => intro p _; rfl
    | cons x l ih =>
      intro p hx
      simp only [List.mem_cons, not_or] at hx
      rw [List.foldl_cons, ih _ hx.2, addTo_get, if_neg (fun h => hx.1 h.2)]
  induction l generalizing p with
  | nil => simp at ha
  | cons x l ih =>
    rw [List.nodup_cons] at hl
    rw [List.foldl_cons]
    by_cases h : a = x
    · subst h
      rw [out _ _ hl.1, addTo_get, if_pos ⟨hc, rfl⟩]
    · rw [ih hl.2 _ ((List.mem_cons.1 ha).resolve_left h), addTo_get, if_neg (fun h' => h h'.2)]

/-- The fold of the locally prioritised case: the entry at position `i` gets the offset of `k + i`. -/
theorem local_fold (nCells : Nat) (off : Nat → Nat) (l : List (Nat × Nat)) (hl : (l.map Prod.snd).Nodup)
    (k : Nat) (p : Table) {c i : Nat} (hc : c < nCells) (hi : i < l.length) :
    (l.foldl (fun (x : Nat × Table) t => (x.1 + 1, addTo nCells t.2 (off x.1) x.2)) (k, p)).2 c (l[i].2) =
      u64 (p c (l[i].2) + off (k + i)) := by
  have out : ∀ (l : List (Nat × Nat)) (k : Nat) (p : Table) (a : Nat), a ∉ l.map Prod.snd →
      (l.foldl (fun (x : Nat × Table) t => (x.1 + 1, addTo nCells t.2 (off x.1) x.2)) (k, p)).2 c a = p c a := by
    intro l
    induction l with
    | nil => intro k p a _; rfl
    | cons x l ih =>
      intro k p a hx
      simp only [List.map_cons, List.mem_cons, not_or] at hx
      rw [List.foldl_cons, ih _ _ _ hx.2, addTo_get, if_neg (fun h => hx.1 h.2)]
  induction l generalizing k p i with
  | nil => simp at hi
  | cons x l ih =>
    rw [List.map_cons, List.nodup_cons] at hl
    rw [List.foldl_cons]
    cases i with
    | zero =>
      simp only [List.getElem_cons_zero]
      rw [out _ _ _ _ hl.1, addTo_get, if_pos ⟨hc, rfl⟩]
      rfl
    | succ i =>
      simp only [List.getElem_cons_succ]
      have hi' : i < l.length := by simpa using hi
      rw [ih hl.2 _ _ hi', addTo_get, if_neg]
      · congr 2; congr 1; omega
      · rintro ⟨-, h⟩
        exact hl.1 (List.mem_map.2 ⟨l[i], List.getElem_mem _, h⟩)

theorem highPriority_spec (nCells : Nat) (p : Table) (a : Nat) :
    (∀ c < nCells, p c a ≤ highPriority nCells p a) ∧
    (highPriority nCells p a = 0 ∨ ∃ c < nCells, highPriority nCells p a = p c a) := by
  obtain ⟨h1, -, h3⟩ := foldl_natMax (List.range nCells) (fun c => p c a) 0
  refine ⟨fun c hc => h1 c (List.mem_range.2 hc), ?_⟩
  rcases h3 with h3 | ⟨c, hc, h3⟩
  · exact Or.inl h3
  · exact Or.inr ⟨c, List.mem_range.1 hc, h3⟩

instance : IsTrans (Nat × Nat) pairLe := ⟨fun x y z h1 h2 => by unfold pairLe at *; omega⟩
instance : Std.Total pairLe := ⟨fun x y => by unfold pairLe; omega⟩

theorem orderedAngles_perm (nAngles nCells : Nat) (p : Table) :
    (orderedAngles nAngles nCells p).Perm
      ((List.range nAngles).map fun a => (highPriority nCells p a, a)) :=
  List.perm_insertionSort _ _

theorem orderedAngles_snd (nAngles nCells : Nat) (p : Table) :
    ((orderedAngles nAngles nCells p).map Prod.snd).Nodup := by
  rw [((orderedAngles_perm nAngles nCells p).map Prod.snd).nodup_iff, List.map_map]
  have : (Prod.snd ∘ fun a => (highPriority nCells p a, a)) = (id : Nat → Nat) := rfl
  rw [this, List.map_id]
  exact List.nodup_range

theorem offset_exact {i nlevels allCells nAngles : Nat} (hi : i < nAngles)
    (hfit : nAngles * nlevels * allCells < 2 ^ 64) (h2 : 1 ≤ allCells) :
    u64 (u64 (i * nlevels) * allCells) = i * nlevels * allCells := by
  have h1 : i * nlevels * allCells ≤ nAngles * nlevels * allCells :=
    Nat.mul_le_mul_right _ (Nat.mul_le_mul_right _ hi.le)
  have h3 : i * nlevels ≤ i * nlevels * allCells := Nat.le_mul_of_pos_right _ h2
  unfold u64
  rw [Nat.mod_eq_of_lt (by omega : i * nlevels < 2 ^ 64), Nat.mod_eq_of_lt (by omega)]

theorem offset_lt {i j nlevels allCells nAngles x y : Nat} (hij : i < j) (hj : j < nAngles)
    (hfit : nAngles * nlevels * allCells < 2 ^ 64)
    (hx : x < nlevels * allCells) (hy : y < nlevels * allCells) :
    u64 (x + u64 (u64 (i * nlevels) * allCells)) < u64 (y + u64 (u64 (j * nlevels) * allCells)) := by
  have h2 : 1 ≤ allCells := Nat.pos_of_ne_zero fun h => by rw [h] at hx; omega
  rw [offset_exact (by omega) hfit (by omega), offset_exact hj hfit (by omega)]
  have h1 : (i + 1) * nlevels * allCells ≤ j * nlevels * allCells :=
    Nat.mul_le_mul_right _ (Nat.mul_le_mul_right _ hij)
  have h3 : (j + 1) * nlevels * allCells ≤ nAngles * nlevels * allCells :=
    Nat.mul_le_mul_right _ (Nat.mul_le_mul_right _ hj)
  have e1 : (i + 1) * nlevels * allCells = i * nlevels * allCells + nlevels * allCells := by ring
  have e2 : (j + 1) * nlevels * allCells = j * nlevels * allCells + nlevels * allCells := by ring
  unfold u64
  rw [Nat.mod_eq_of_lt (by omega), Nat.mod_eq_of_lt (by omega)]
  omega

theorem le_lt {x nlevels allCells : Nat} (hl : 1 ≤ nlevels) (h2 : 2 ≤ allCells) (hx : x ≤ nlevels) :
    x < nlevels * allCells := by
  have h4 : nlevels * 2 ≤ nlevels * allCells := Nat.mul_le_mul_left _ h2
  omega

/-- C59: interleaved angles keep their priorities. -/
theorem interleaved (nAngles nCells allCells nlevels : Nat) (p : Table) :
    anglePriorities nAngles nCells allCells 0 nlevels p = p := rfl

/-- C59: globally prioritised angles: every task of an angle has lower priority than every task of an
angle of larger index, when the intra-angle priorities are below levels times cells. -/
theorem global_angles {nAngles nCells allCells nlevels : Nat} {p : Table}
    (hfit : nAngles * nlevels * allCells < 2 ^ 64)
    (hp : ∀ c a, c < nCells → a < nAngles → p c a < nlevels * allCells) {c c' a a' : Nat} (hc : c < nCells)
    (hc' : c' < nCells) (ha : a < a') (ha' : a' < nAngles) :
    anglePriorities nAngles nCells allCells 1 nlevels p c a <
      anglePriorities nAngles nCells allCells 1 nlevels p c' a' := by
  show ((List.range nAngles).foldl _ p) c a < ((List.range nAngles).foldl _ p) c' a'
  rw [addTo_fold nCells (fun a => u64 (u64 (a * nlevels) * allCells)) _ List.nodup_range p hc
      (List.mem_range.2 (by omega)),
    addTo_fold nCells (fun a => u64 (u64 (a * nlevels) * allCells)) _ List.nodup_range p hc'
      (List.mem_range.2 ha')]
  exact offset_lt ha ha' hfit (hp c a hc (by omega)) (hp c' a' hc' ha')

/-- C59: locally prioritised angles: every task of an angle has lower priority than every task of an
angle whose highest priority on this rank is larger (or equal, with a larger index). -/
theorem local_angles {nAngles nCells allCells nlevels : Nat} {p : Table}
    (hfit : nAngles * nlevels * allCells < 2 ^ 64)
    (hp : ∀ c a, c < nCells → a < nAngles → p c a < nlevels * allCells) {c c' a a' : Nat} (hc : c < nCells)
    (hc' : c' < nCells) (ha : a < nAngles) (ha' : a' < nAngles)
    (hlt : highPriority nCells p a < highPriority nCells p a' ∨
      (highPriority nCells p a = highPriority nCells p a' ∧ a < a')) :
    anglePriorities nAngles nCells allCells 2 nlevels p c a <
      anglePriorities nAngles nCells allCells 2 nlevels p c' a' := by
  set l := orderedAngles nAngles nCells p with hldef
  have hlen : l.length = nAngles := by
    rw [(orderedAngles_perm nAngles nCells p).length_eq]; simp
  have hpos : ∀ a < nAngles, ∃ i, ∃ hi : i < l.length, l[i] = (highPriority nCells p a, a) := by
    intro a ha
    have : (highPriority nCells p a, a) ∈ l := by
      rw [hldef, (orderedAngles_perm nAngles nCells p).mem_iff]
      exact List.mem_map.2 ⟨a, List.mem_range.2 ha, rfl⟩
    obtain ⟨i, hi, he⟩ := List.getElem_of_mem this
    exact ⟨i, hi, he⟩
  have hval : ∀ c a i (hi : i < l.length), c < nCells → l[i] = (highPriority nCells p a, a) →
      anglePriorities nAngles nCells allCells 2 nlevels p c a =
        u64 (p c a + u64 (u64 (i * nlevels) * allCells)) := by
    intro c a i hi hc he
    have hnd : (l.reverse.map Prod.snd).Nodup := by
      rw [List.map_reverse, List.nodup_reverse]
      exact orderedAngles_snd nAngles nCells p
    have := local_fold nCells
      (fun k => u64 (u64 ((nAngles - (k + 1)) * nlevels) * allCells)) l.reverse hnd 0 p
      (c := c) (i := l.length - 1 - i) hc (by rw [List.length_reverse]; omega)
    have e1 : l.reverse[l.length - 1 - i]'(by rw [List.length_reverse]; omega) = l[i] := by
      rw [List.getElem_reverse]
      congr 1
      omega
    rw [e1, he] at this
    show (l.reverse.foldl _ (0, p)).2 c a = _
    rw [this, show nAngles - (0 + (l.length - 1 - i) + 1) = i by omega]
  obtain ⟨i, hi, he⟩ := hpos a ha
  obtain ⟨j, hj, he'⟩ := hpos a' ha'
  rw [hval c a i hi hc he, hval c' a' j hj hc' he']
  have hij : i < j := by
    by_contra hge
    have hsort : l.Pairwise pairLe := List.pairwise_insertionSort _ _
    rcases Nat.lt_or_ge j i with h | h
    · have := List.pairwise_iff_getElem.1 hsort j i hj hi h
      rw [he, he'] at this
      unfold pairLe at this
      simp only at this
      omega
    · have : i = j := by omega
      subst this
      rw [he] at he'
      injection he' with h1 h2
      omega
  exact offset_lt hij (by omega) hfit (hp c a hc ha) (hp c' a' hc' ha')

/-! ### The whole computation -/

/-- `Priorities::calcPriorities` (src/Priorities.cc:396-435): `p r` is what it leaves on rank `r`.
`rand` are the random numbers and `old` what `priorities` held (kept when `intraAngleP` is none of the
five cases). -/
def Prio.Calc (R : Prio) (intraAngleP interAngleP : Nat) (rand old p : Nat → Table) : Prop :=
  ∃ s : State BLevels Nat, Reachable R.bcfg s ∧ (∀ r < R.nRanks, (s.rank r).phase = .finished) ∧
  ∃ p0 : Nat → Table,
    (let M := R.maxBLevel fun r => (s.rank r).data
     let side := fun r => (s.rank r).data.side
     match intraAngleP with
     | 0 => ∀ r, p0 r = copyTable R.nAngles (R.mesh r).nCells (rand r) (old r)
     | 1 => ∀ r, p0 r = copyTable R.nAngles (R.mesh r).nCells (s.rank r).data.cell (old r)
     | 2 => ∃ s', Reachable (R.ncfg bfds side) s' ∧ (∀ r < R.nRanks, (s'.rank r).phase = .finished) ∧
         ∀ r, p0 r = (s'.rank r).data
     | 3 => ∃ s', Reachable (R.ncfg (dfds M) side) s' ∧
         (∀ r < R.nRanks, (s'.rank r).phase = .finished) ∧ ∀ r, p0 r = (s'.rank r).data
     | 4 => ∃ s', Reachable (R.ncfg (dfhds M) side) s' ∧
         (∀ r < R.nRanks, (s'.rank r).phase = .finished) ∧ ∀ r, p0 r = (s'.rank r).data
     | _ => p0 = old) ∧
    ∀ r, p r = anglePriorities R.nAngles (R.mesh r).nCells R.allCells interAngleP
      (R.maxBLevel fun r => (s.rank r).data) (p0 r)

section
variable {R : Prio} {mate : Loc → Option Loc}

theorem linked_ncfg (L : Linked R.bcfg mate) (h : Heuristic) (side : Nat → Table) :
    Linked (R.ncfg h side) mate :=
  ⟨L.threads, L.size, L.mate_in, L.mate_symm, L.near, L.far, L.ext, L.side_eq, L.side_cell, L.side_inj,
    L.orient⟩

/-- The side levels read by the neighbour heuristics are all zero. -/
theorem sideBLevels_zero (L : Linked R.bcfg mate) {s : State BLevels Nat} (h : Reachable R.bcfg s)
    {r : Nat} (hr : r < R.nRanks) : (s.rank r).data.side = fun _ _ => 0 := by
  rw [(h.inv L).data r hr]
  exact R.bRule.replay_inv L rfl (h.inv L).ordered r

end

end Verif.Priorities
