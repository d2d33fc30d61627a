import Verif.Priorities.Angles

/-!
# `calcPriorities` as a whole
-/
set_option linter.unusedSectionVars false

namespace Verif.Priorities
open Classical List Verif.Traverse

theorem highPriority_congr {nCells : Nat} {p p' : Table} {a : Nat}
    (h : ∀ c < nCells, p c a = p' c a) : highPriority nCells p a = highPriority nCells p' a := by
  unfold highPriority
  apply List.foldl_ext
  intro m c hc
  rw [h c (List.mem_range.1 hc)]

theorem orderedAngles_congr {nAngles nCells : Nat} {p p' : Table}
    (h : ∀ c a, c < nCells → a < nAngles → p c a = p' c a) :
    orderedAngles nAngles nCells p = orderedAngles nAngles nCells p' := by
  unfold orderedAngles
  congr 1
  apply List.map_congr_left
  intro a ha
  rw [highPriority_congr fun c hc => h c a hc (List.mem_range.1 ha)]

/-- What is added to the priorities of an angle. -/
noncomputable def angleOffset (nAngles nCells allCells interAngleP nlevels : Nat) (p : Table) (a : Nat) : Nat :=
  match interAngleP with
  | 1 => u64 (u64 (a * nlevels) * allCells)
  | 2 => u64 (u64 (((orderedAngles nAngles nCells p).map Prod.snd).idxOf a * nlevels) * allCells)
  | _ => 0

theorem anglePriorities_get (nAngles nCells allCells interAngleP nlevels : Nat) (p : Table)
    {c a : Nat} (hc : c < nCells) (ha : a < nAngles) (hp : p c a < 2 ^ 64) :
    anglePriorities nAngles nCells allCells interAngleP nlevels p c a =
      u64 (p c a + angleOffset nAngles nCells allCells interAngleP nlevels p a) := by
  unfold anglePriorities angleOffset
  by_cases h1 : interAngleP = 1
  · subst h1
    exact addTo_fold nCells (fun a => u64 (u64 (a * nlevels) * allCells)) _ List.nodup_range p hc
      (List.mem_range.2 ha)
  by_cases h2 : interAngleP = 2
  · subst h2
    set l := orderedAngles nAngles nCells p with hl
    have hlen : l.length = nAngles := by
      rw [(orderedAngles_perm nAngles nCells p).length_eq]; simp
    have hnd : (l.map Prod.snd).Nodup := orderedAngles_snd nAngles nCells p
    have hmem : a ∈ l.map Prod.snd := by
      rw [hl, ((orderedAngles_perm nAngles nCells p).map Prod.snd).mem_iff]
      simp [ha]
    have hi : (l.map Prod.snd).idxOf a < l.length := by
      have := List.idxOf_lt_length_iff.2 hmem
      simpa using this
    set i := (l.map Prod.snd).idxOf a with hidef
    have hnd' : (l.reverse.map Prod.snd).Nodup := by
      rw [List.map_reverse, List.nodup_reverse]; exact hnd
    have := local_fold nCells
      (fun k => u64 (u64 ((nAngles - (k + 1)) * nlevels) * allCells)) l.reverse hnd' 0 p
      (c := c) (i := l.length - 1 - i) hc (by rw [List.length_reverse]; omega)
    have e1 : (l.reverse[l.length - 1 - i]'(by rw [List.length_reverse]; omega)).2 = a := by
      rw [List.getElem_reverse]
      have e2 : (l.map Prod.snd)[i]'(by simpa using hi) = a := List.getElem_idxOf _
      rw [List.getElem_map] at e2
      refine Eq.trans ?_ e2
      congr 2
      omega
    rw [e1, show nAngles - (0 + (l.length - 1 - i) + 1) = i by omega] at this
    exact this
  · split
    · exact absurd rfl h1
    · exact absurd rfl h2
    · split
      · exact absurd rfl h1
      · exact absurd rfl h2
      · rw [Nat.add_zero]
        exact (Nat.mod_eq_of_lt hp).symm

theorem angleOffset_le {nAngles nCells allCells nlevels : Nat} (interAngleP : Nat) (p : Table) {a : Nat} (ha : a < nAngles)
    (hfit : nAngles * nlevels * allCells < 2 ^ 64) (h1 : 1 ≤ allCells) :
    angleOffset nAngles nCells allCells interAngleP nlevels p a + nlevels * allCells < 2 ^ 64 := by
  have hgen : ∀ i < nAngles, u64 (u64 (i * nlevels) * allCells) + nlevels * allCells < 2 ^ 64 := by
    intro i hi
    rw [offset_exact hi hfit h1]
    have h3 : (i + 1) * nlevels * allCells ≤ nAngles * nlevels * allCells :=
      Nat.mul_le_mul_right _ (Nat.mul_le_mul_right _ hi)
    have h4 : (i + 1) * nlevels * allCells = i * nlevels * allCells + nlevels * allCells := by ring
    omega
  unfold angleOffset
  split
  · exact hgen a ha
  · apply hgen
    have hmem : a ∈ (orderedAngles nAngles nCells p).map Prod.snd := by
      rw [((orderedAngles_perm nAngles nCells p).map Prod.snd).mem_iff]
      simp [ha]
    have := List.idxOf_lt_length_iff.2 hmem
    rw [List.length_map, (orderedAngles_perm nAngles nCells p).length_eq] at this
    simpa using this
  · have := hgen 0 (by omega)
    omega

/-- C59: whatever the inter-angle option, the tasks of one angle keep their order. -/
theorem angle_keeps_order {nAngles nCells allCells nlevels : Nat} (interAngleP : Nat) {p : Table}
    (hfit : nAngles * nlevels * allCells < 2 ^ 64) {c c' a : Nat} (hc : c < nCells) (hc' : c' < nCells) (ha : a < nAngles)
    (h1 : p c a < nlevels * allCells) (h2 : p c' a < nlevels * allCells) :
    anglePriorities nAngles nCells allCells interAngleP nlevels p c a <
      anglePriorities nAngles nCells allCells interAngleP nlevels p c' a ↔ p c a < p c' a := by
  have hpos : 1 ≤ allCells := Nat.pos_of_ne_zero fun h => by rw [h] at h1; omega
  have ho := angleOffset_le (nCells := nCells) interAngleP p ha hfit hpos
  rw [anglePriorities_get _ _ _ _ _ _ hc ha (by omega), anglePriorities_get _ _ _ _ _ _ hc' ha (by omega)]
  unfold u64
  rw [Nat.mod_eq_of_lt (by omega), Nat.mod_eq_of_lt (by omega)]
  omega

/-- C59: the bound on the priorities is needed: with one at levels times cells, angles are mixed. (The random
option gives values up to `RAND_MAX`, whatever the size of the mesh.) -/
theorem angles_mixed {nAngles nCells allCells nlevels : Nat} (h2 : 2 ≤ nAngles) (hn : 0 < nCells) (h1 : 1 ≤ allCells)
    (hfit : nAngles * nlevels * allCells < 2 ^ 64) :
    ∃ p : Table, (∀ c a, p c a ≤ nlevels * allCells) ∧
      ¬ anglePriorities nAngles nCells allCells 1 nlevels p 0 0 < anglePriorities nAngles nCells allCells 1 nlevels p 0 1 := by
  refine ⟨fun _ a => if a = 0 then nlevels * allCells else 0, fun c a => by dsimp only; split <;> omega, ?_⟩
  have h0 := angleOffset_le (nCells := nCells) 1 (fun _ a => if a = 0 then nlevels * allCells else 0) (a := 0) (by omega) hfit h1
  have h1' := angleOffset_le (nCells := nCells) 1 (fun _ a => if a = 0 then nlevels * allCells else 0) (a := 1) (by omega) hfit h1
  rw [anglePriorities_get _ _ _ _ _ _ hn (by omega : 0 < nAngles) (by simp only [if_pos]; omega),
    anglePriorities_get _ _ _ _ _ _ hn (by omega : 1 < nAngles) (by simp)]
  have e0 : angleOffset nAngles nCells allCells 1 nlevels (fun _ a => if a = 0 then nlevels * allCells else 0) 0 = 0 * nlevels * allCells :=
    offset_exact (by omega) hfit h1
  have e1 : angleOffset nAngles nCells allCells 1 nlevels (fun _ a => if a = 0 then nlevels * allCells else 0) 1 = 1 * nlevels * allCells :=
    offset_exact (by omega) hfit h1
  rw [e0] at h0
  rw [e1] at h1'
  rw [e0, e1]
  unfold u64
  simp only [if_pos, one_ne_zero, if_false, Nat.zero_mul, Nat.one_mul] at *
  rw [Nat.mod_eq_of_lt (by omega), Nat.mod_eq_of_lt (by omega)]
  omega

theorem anglePriorities_congr {nAngles nCells allCells interAngleP nlevels : Nat} {p p' : Table}
    (h : ∀ c a, c < nCells → a < nAngles → p c a = p' c a) {c a : Nat} (hc : c < nCells)
    (ha : a < nAngles) :
    anglePriorities nAngles nCells allCells interAngleP nlevels p c a =
      anglePriorities nAngles nCells allCells interAngleP nlevels p' c a := by
  unfold anglePriorities
  split
  · rw [addTo_fold nCells (fun a => u64 (u64 (a * nlevels) * allCells)) _ List.nodup_range p hc
        (List.mem_range.2 ha),
      addTo_fold nCells (fun a => u64 (u64 (a * nlevels) * allCells)) _ List.nodup_range p' hc
        (List.mem_range.2 ha), h c a hc ha]
  · rw [← orderedAngles_congr h]
    have key : ∀ (l : List (Nat × Nat)) (x x' : Nat × Table), x.1 = x'.1 → x.2 c a = x'.2 c a →
        (l.foldl (fun (x : Nat × Table) t => (x.1 + 1, addTo nCells t.2
          (u64 (u64 ((nAngles - (x.1 + 1)) * nlevels) * allCells)) x.2)) x).2 c a =
        (l.foldl (fun (x : Nat × Table) t => (x.1 + 1, addTo nCells t.2
          (u64 (u64 ((nAngles - (x.1 + 1)) * nlevels) * allCells)) x.2)) x').2 c a := by
      intro l
      induction l with
      | nil => intro x x' _ h2; exact h2
      | cons t l ih =>
        intro x x' h1 h2
        rw [List.foldl_cons, List.foldl_cons]
        apply ih
        · simp only [h1]
        · simp only [addTo_get, h1, h2]
    exact key _ _ _ rfl (h c a hc ha)
  · exact h c a hc ha

section
variable {R : Prio} {mate : Loc → Option Loc}

/-- The same mesh traversed in another way. -/
def Prio.other (R : Prio) (threads batch : Nat) (pr : Protocol) (rv : Bool) : Prio where
  nRanks := R.nRanks
  nAngles := R.nAngles
  nThreads := threads
  maxCompute := batch
  protocol := pr
  rendezvous := rv
  mesh := R.mesh

/-- B-levels are the same in every execution. -/
theorem bLevels_same (L : Linked R.bcfg mate) {s s' : State BLevels Nat} (h : Reachable R.bcfg s)
    (hf : ∀ r < R.nRanks, (s.rank r).phase = .finished) (threads batch : Nat) (pr : Protocol)
    (rv : Bool) (ht : 0 < threads)
    (h' : Reachable (R.other threads batch pr rv).bcfg s')
    (hf' : ∀ r < R.nRanks, (s'.rank r).phase = .finished) :
    (∀ r c a, r < R.nRanks → c < (R.mesh r).nCells → a < R.nAngles →
      (s.rank r).data.cell c a = (s'.rank r).data.cell c a) ∧
    R.maxBLevel (fun r => (s.rank r).data) = R.maxBLevel fun r => (s'.rank r).data := by
  have L' : Linked (R.other threads batch pr rv).bcfg mate := ⟨ht, L.size, L.mate_in, L.mate_symm, L.near, L.far, L.ext,
    L.side_eq, L.side_cell, L.side_inj, L.orient⟩
  have key : ∀ r c a, r < R.nRanks → c < (R.mesh r).nCells → a < R.nAngles →
      (s.rank r).data.cell c a = (s'.rank r).data.cell c a := fun r c a hr hc ha =>
    (bLevels_longest L h hf hr hc ha).unique (bLevels_longest L' h' hf' hr hc ha)
  refine ⟨key, ?_⟩
  obtain ⟨h1, h2⟩ := maxBLevel_largest L h hf
  obtain ⟨h1', h2'⟩ := maxBLevel_largest L' h' hf'
  change (∀ r c a, r < R.nRanks → c < (R.mesh r).nCells → a < R.nAngles →
    (s'.rank r).data.cell c a ≤ R.maxBLevel fun r => (s'.rank r).data) at h1'
  change (R.maxBLevel (fun r => (s'.rank r).data) = 0 ∨
      ∃ r c a, r < R.nRanks ∧ c < (R.mesh r).nCells ∧ a < R.nAngles ∧
        (s'.rank r).data.cell c a = R.maxBLevel fun r => (s'.rank r).data) at h2'
  apply le_antisymm
  · rcases h2 with h2 | ⟨r, c, a, hr, hc, ha, he⟩
    · omega
    · rw [← he, key r c a hr hc ha]; exact h1' r c a hr hc ha
  · rcases h2' with h2 | ⟨r, c, a, hr, hc, ha, he⟩
    · omega
    · rw [← he, ← key r c a hr hc ha]; exact h1 r c a hr hc ha

/-- C61: the priorities depend on nothing but the mesh, the ordinates and the heuristics chosen: not
on threads, batch size or the order of computation. -/
theorem calcPriorities_deterministic (L : Linked R.bcfg mate) (threads batch : Nat) (pr : Protocol)
    (rv : Bool) (ht : 0 < threads) {intra inter : Nat} {rand old old' p p' : Nat → Table}
    (hin : intra ≤ 4) (h : R.Calc intra inter rand old p)
    (h' : (R.other threads batch pr rv).Calc intra inter rand old' p') {r c a : Nat} (hr : r < R.nRanks)
    (hc : c < (R.mesh r).nCells) (ha : a < R.nAngles) : p r c a = p' r c a := by
  have L' : Linked (R.other threads batch pr rv).bcfg mate := ⟨ht, L.size, L.mate_in, L.mate_symm, L.near, L.far, L.ext,
    L.side_eq, L.side_cell, L.side_inj, L.orient⟩
  obtain ⟨s, hs, hf, p0, hp0, hp⟩ := h
  obtain ⟨s', hs', hf', p0', hp0', hp'⟩ := h'
  obtain ⟨hb, hM⟩ := bLevels_same L hs hf threads batch pr rv ht hs' hf'
  have hz : ∀ r < R.nRanks, (s.rank r).data.side = fun _ _ => 0 := fun r hr => sideBLevels_zero L hs hr
  have hz' : ∀ r < R.nRanks, (s'.rank r).data.side = fun _ _ => 0 := fun r hr =>
    sideBLevels_zero L' hs' hr
  rw [hp, hp']
  dsimp only at hp0 hp0'
  change anglePriorities R.nAngles (R.mesh r).nCells R.allCells inter
      (R.maxBLevel fun r => (s.rank r).data) (p0 r) c a =
    anglePriorities R.nAngles (R.mesh r).nCells R.allCells inter
      (R.maxBLevel fun r => (s'.rank r).data) (p0' r) c a
  have hmax : ∀ d, (R.other threads batch pr rv).maxBLevel d = R.maxBLevel d := fun _ => rfl
  rw [hmax] at hp0'
  rw [← hM] at hp0' ⊢
  apply anglePriorities_congr _ hc ha
  intro c a hc ha
  have hncongr : ∀ (h : Heuristic) (t t' : State Table Nat),
      Reachable (R.ncfg h fun r => (s.rank r).data.side) t →
      (∀ r < R.nRanks, (t.rank r).phase = .finished) →
      Reachable ((R.other threads batch pr rv).ncfg h fun r => (s'.rank r).data.side) t' →
      (∀ r < R.nRanks, (t'.rank r).phase = .finished) →
      (t.rank r).data c a = (t'.rank r).data c a := by
    intro h t t' h1 h2 h3 h4
    have Lt := linked_ncfg L h fun r => (s.rank r).data.side
    have Lt' := linked_ncfg L' h fun r => (s'.rank r).data.side
    obtain ⟨rk, hrk⟩ := exists_rank Lt rfl (h1.inv Lt).ordered (complete_of_finished Lt h1 h2) hr ha
    induction hn : rk c using Nat.strong_induction_on generalizing c with
    | _ n ih =>
      subst hn
      rw [neighbor_rule Lt h1 h2 hr hc ha, neighbor_rule Lt' h3 h4 hr hc ha]
      apply best_congr
      intro f
      change h.face ((s.rank r).data.side) a (adjCellsSides (R.mesh r) c f) (bdryType (R.mesh r) a c f)
        (fun n _ => (t.rank r).data n a) = h.face ((s'.rank r).data.side) a
        (adjCellsSides (R.mesh r) c f) (bdryType (R.mesh r) a c f) (fun n _ => (t'.rank r).data n a)
      cases hb : bdryType (R.mesh r) a c f <;> simp only [Heuristic.face]
      · rw [hz r hr, hz' r hr]
      · obtain ⟨ho, n, hn, hn'⟩ := bdry_outInt hb
        rw [hn']
        simp only [Option.getD_some]
        obtain ⟨g1, g2⟩ := (hrk c hc).2 f n ho hn
        rw [ih (rk n) g2 n g1 rfl]
  obtain rfl | rfl | rfl | rfl | rfl : intra = 0 ∨ intra = 1 ∨ intra = 2 ∨ intra = 3 ∨ intra = 4 := by omega
  · have e1 := hp0 r
    have e2 := hp0' r
    rw [e1, e2]
    change copyTable R.nAngles (R.mesh r).nCells (rand r) (old r) c a =
      copyTable R.nAngles (R.mesh r).nCells (rand r) (old' r) c a
    rw [copyTable_get, copyTable_get, if_pos ⟨hc, ha⟩, if_pos ⟨hc, ha⟩]
  · have e1 := hp0 r
    have e2 := hp0' r
    rw [e1, e2]
    change copyTable R.nAngles (R.mesh r).nCells (s.rank r).data.cell (old r) c a =
      copyTable R.nAngles (R.mesh r).nCells (s'.rank r).data.cell (old' r) c a
    rw [copyTable_get, copyTable_get, if_pos ⟨hc, ha⟩, if_pos ⟨hc, ha⟩]
    exact hb r c a hr hc ha
  · obtain ⟨t, h1, h2, h3⟩ := hp0
    obtain ⟨t', h1', h2', h3'⟩ := hp0'
    rw [h3, h3']
    exact hncongr _ t t' h1 h2 h1' h2'
  · obtain ⟨t, h1, h2, h3⟩ := hp0
    obtain ⟨t', h1', h2', h3'⟩ := hp0'
    rw [h3, h3']
    exact hncongr _ t t' h1 h2 h1' h2'
  · obtain ⟨t, h1, h2, h3⟩ := hp0
    obtain ⟨t', h1', h2', h3'⟩ := hp0'
    rw [h3, h3']
    exact hncongr _ t t' h1 h2 h1' h2'

/-- The number of cells of the mesh. -/
def Prio.totalCells (R : Prio) : Nat := ∑ r ∈ Finset.range R.nRanks, (R.mesh r).nCells

theorem allCells_eq (h : R.totalCells < 2 ^ 64) : R.allCells = R.totalCells := by
  have : ((List.range R.nRanks).map fun r => (R.mesh r).nCells).sum = R.totalCells := by
    unfold Prio.totalCells
    rw [Finset.sum_range, ← List.sum_ofFn, List.ofFn_eq_map]
    rw [← List.map_coe_finRange_eq_range, List.map_map]
    rfl
  unfold Prio.allCells
  rw [this]
  exact Nat.mod_eq_of_lt h

/-- C59: with b-levels inside an angle, a task goes before every task of its angle that waits for it on
the same partition; with the angles prioritised globally, before all tasks of angles of smaller index;
locally, before all tasks of angles whose longest chain on the rank is shorter. -/
theorem calcPriorities_order (L : Linked R.bcfg mate) {inter : Nat} {rand old p : Nat → Table}
    (h : R.Calc 1 inter rand old p) (h2 : 2 ≤ R.totalCells) (h64 : R.totalCells < 2 ^ 64)
    (hfit : ∀ r c a k, r < R.nRanks → c < (R.mesh r).nCells → a < R.nAngles →
      Chain (R.mesh r) a c k → R.nAngles * k * R.totalCells < 2 ^ 64) {r c a : Nat} (hr : r < R.nRanks)
    (hc : c < (R.mesh r).nCells) (ha : a < R.nAngles) :
    (∀ f n, (R.mesh r).outgoing a c f = true → (R.mesh r).adjCell c f = some n → p r n a < p r c a) ∧
    (inter = 1 → ∀ c' a', c' < (R.mesh r).nCells → a' < a →
      (∃ r c a f n, r < R.nRanks ∧ c < (R.mesh r).nCells ∧ a < R.nAngles ∧
        (R.mesh r).outgoing a c f = true ∧ (R.mesh r).adjCell c f = some n) → p r c' a' < p r c a) ∧
    (inter = 2 → ∀ c' a', c' < (R.mesh r).nCells → a' < R.nAngles →
      (∃ c0 k, c0 < (R.mesh r).nCells ∧ Chain (R.mesh r) a c0 k ∧
        ∀ c1 k', c1 < (R.mesh r).nCells → Chain (R.mesh r) a' c1 k' → k' < k) → p r c' a' < p r c a) := by
  rw [← allCells_eq h64] at h2
  rw [← allCells_eq h64] at hfit
  obtain ⟨s, hs, hf, p0, hp0, hp⟩ := h
  dsimp only at hp0
  set M := R.maxBLevel fun r => (s.rank r).data with hMdef
  obtain ⟨hM1, hM2⟩ := maxBLevel_largest L hs hf
  have hval : ∀ c a, c < (R.mesh r).nCells → a < R.nAngles → p0 r c a = (s.rank r).data.cell c a := by
    intro c a hc ha
    rw [hp0 r, copyTable_get, if_pos ⟨hc, ha⟩]
  have hle : ∀ c a, c < (R.mesh r).nCells → a < R.nAngles → p0 r c a ≤ M := by
    intro c a hc ha
    rw [hval c a hc ha]
    exact hM1 r c a hr hc ha
  have hfit' : R.nAngles * M * R.allCells < 2 ^ 64 := by
    rcases hM2 with h0 | ⟨r', c', a', hr', hc', ha', he⟩
    · rw [← hMdef] at h0
      rw [h0]; simp
    · rw [← hMdef] at he
      rw [← he]
      exact hfit r' c' a' _ hr' hc' ha' (bLevels_longest L hs hf hr' hc' ha').1
  have hMlt : M * 2 ≤ R.nAngles * M * R.allCells := by
    have h3 : 1 * M ≤ R.nAngles * M := Nat.mul_le_mul_right _ (by omega)
    calc M * 2 ≤ (R.nAngles * M) * 2 := by omega
      _ ≤ _ := Nat.mul_le_mul_left _ h2
  refine ⟨fun f n ho hn => ?_, ?_, ?_⟩
  · obtain ⟨rk, hrk⟩ := exists_rank L rfl (hs.inv L).ordered (complete_of_finished L hs hf) hr ha
    have hn' : n < (R.mesh r).nCells := ((hrk c hc).2 f n ho hn).1
    have hlt := (bLevels_decrease L hs hf hr hc ha).2 f n ho hn
    have e1 := hle c a hc ha
    have e2 := hle n a hn' ha
    rw [hp r, anglePriorities_get _ _ _ _ _ _ hn' ha (by omega),
      anglePriorities_get _ _ _ _ _ _ hc ha (by omega), hval n a hn' ha, hval c a hc ha]
    rw [hval n a hn' ha] at e2
    rw [hval c a hc ha] at e1
    -- the offsets are equal and nothing wraps
    have hoff : angleOffset R.nAngles (R.mesh r).nCells R.allCells inter M (p0 r) a + M < 2 ^ 64 := by
      have hgen : ∀ i < R.nAngles, u64 (u64 (i * M) * R.allCells) + M < 2 ^ 64 := by
        intro i hi
        rw [offset_exact hi hfit' (by omega)]
        have h3 : (i + 1) * M * R.allCells ≤ R.nAngles * M * R.allCells :=
          Nat.mul_le_mul_right _ (Nat.mul_le_mul_right _ hi)
        have h4 : (i + 1) * M * R.allCells = i * M * R.allCells + M * R.allCells := by ring
        have h5 : M * 2 ≤ M * R.allCells := Nat.mul_le_mul_left _ h2
        omega
      unfold angleOffset
      split
      · exact hgen a ha
      · apply hgen
        have hmem : a ∈ (orderedAngles R.nAngles (R.mesh r).nCells (p0 r)).map Prod.snd := by
          rw [((orderedAngles_perm R.nAngles (R.mesh r).nCells (p0 r)).map Prod.snd).mem_iff]
          simp [ha]
        have := List.idxOf_lt_length_iff.2 hmem
        rw [List.length_map, (orderedAngles_perm R.nAngles (R.mesh r).nCells (p0 r)).length_eq] at this
        simpa using this
      · omega
    unfold u64
    rw [Nat.mod_eq_of_lt (by omega), Nat.mod_eq_of_lt (by omega)]
    omega
  · rintro rfl c' a' hc' ha' ⟨r1, c1, a1, f1, n1, hr1, hc1, ha1, ho1, hn1⟩
    rw [hp r]
    refine global_angles hfit' (fun c a hc ha => le_lt ?_ h2 (hle c a hc ha)) hc' hc ha' ha
    have := (bLevels_decrease L hs hf hr1 hc1 ha1).2 f1 n1 ho1 hn1
    have := hM1 r1 c1 a1 hr1 hc1 ha1
    omega
  · rintro rfl c' a' hc' ha' ⟨c0, k, hc0, hk, hall⟩
    rw [hp r]
    have hk1 := (bLevels_longest L hs hf hr hc0 ha).2 hk
    have hk2 := hM1 r c0 a hr hc0 ha
    have hkpos := hall c' 0 hc' (.stop c')
    refine local_angles hfit' (fun c a hc ha => le_lt (by omega) h2 (hle c a hc ha)) hc' hc ha' ha (Or.inl ?_)
    have h3 := (highPriority_spec (R.mesh r).nCells (p0 r) a).1 c0 hc0
    rw [hval c0 a hc0 ha] at h3
    rcases (highPriority_spec (R.mesh r).nCells (p0 r) a').2 with h4 | ⟨c1, hc1, h4⟩
    · omega
    · rw [h4, hval c1 a' hc1 ha']
      have := hall c1 _ hc1 (bLevels_longest L hs hf hr hc1 ha').1
      omega

/-! ### The computing traversals terminate -/

/-- A mesh fit for sweeping is fit for the priorities, when no interior face is parallel to an
ordinate. -/
theorem linked_backward {D B : Type} {cfg : Cfg D B} (L : Linked cfg mate)
    (h1 : R.nRanks = cfg.nRanks) (h2 : R.nAngles = cfg.nAngles) (h3 : R.mesh = cfg.mesh)
    (ht : 0 < R.nThreads)
    (hpar : ∀ x y a, cfg.In x → mate x = some y → a < cfg.nAngles →
      (cfg.mesh x.rank).outgoing a x.cell x.face = true ∨
      (cfg.mesh y.rank).outgoing a y.cell y.face = true) : Linked R.bcfg mate := by
  obtain ⟨nR, nA, nT, mC, pr, rv, mesh⟩ := R
  simp only at h1 h2 h3 ht
  subst h1 h2 h3
  exact
  { threads := ht
    size := L.size
    mate_in := L.mate_in
    mate_symm := L.mate_symm
    near := L.near
    far := L.far
    ext := L.ext
    side_eq := L.side_eq
    side_cell := L.side_cell
    side_inj := L.side_inj
    orient := by
      intro x y a hx hy ha ho
      simp only [Cfg.outDir, Prio.bcfg] at ho
      simp only [Cfg.inDir, Prio.bcfg]
      rcases hpar x y a hx hy ha with h | h
      · simp [h] at ho
      · exact h }

/-- The computing traversals wait in the opposite order of the sweep, so they wait for no cycle. -/
theorem acyclic_backward {D B : Type} {cfg : Cfg D B} (L : Linked cfg mate) (hfw : cfg.direction = .forward)
    (hac : Acyclic cfg mate) (hcomm : cfg.doComm = true)
    (h1 : R.nRanks = cfg.nRanks) (h2 : R.nAngles = cfg.nAngles) (h3 : R.mesh = cfg.mesh) :
    Acyclic R.bcfg mate ∧ Crossed R.bcfg mate := by
  obtain ⟨nR, nA, nT, mC, pr, rv, mesh⟩ := R
  simp only at h1 h2 h3
  subst h1 h2 h3
  have key : ∀ x y a, cfg.In x → mate x = some y → a < cfg.nAngles →
      (cfg.mesh x.rank).outgoing a x.cell x.face = true →
      (cfg.mesh y.rank).outgoing a y.cell y.face = false := by
    intro x y a hx hy ha ho
    have := L.orient x y a hx hy ha (by simp [Cfg.outDir, ho, hfw])
    simpa [Cfg.inDir, hfw] using this
  constructor
  · intro a ha t ht
    apply hac a ha t
    have hsw : ∀ t t', Before (Prio.bcfg ⟨cfg.nRanks, cfg.nAngles, nT, mC, pr, rv, cfg.mesh⟩) mate a t t' →
        Before cfg mate a t' t := by
      rintro t t' ⟨x, y, hx, hy, hn, rfl, rfl⟩
      have ho : (cfg.mesh x.rank).outgoing a x.cell x.face = true := hn.1
      refine ⟨y, x, L.mate_in x y hx hy, L.mate_symm x y hx hy, ⟨?_, x, L.mate_symm x y hx hy, Or.inl hcomm⟩,
        rfl, rfl⟩
      simp [Cfg.inDir, hfw, key x y a hx hy ha ho]
    have := Relation.TransGen.mono (fun _ _ h => hsw _ _ h) _ _ ht.swap
    exact this
  · intro x y a hx hy ha hi
    have ho : (cfg.mesh x.rank).outgoing a x.cell x.face = true := hi
    have := key x y a hx hy ha ho
    simp [Cfg.outDir, Prio.bcfg, this]

/-- C61: `calcPriorities` returns, for every choice of heuristics. -/
theorem calcPriorities_returns (L : Linked R.bcfg mate) (hb : 0 < R.maxCompute)
    (hac : Acyclic R.bcfg mate) (hx : Crossed R.bcfg mate) (intra inter : Nat) (rand old : Nat → Table) :
    ∃ p, R.Calc intra inter rand old p := by
  obtain ⟨n, s, hrun, hf⟩ := traverse_finishes L hb (by simp [Prio.bcfg]) hx hac
  have hs := hrun.reachable .init
  have hnf : ∀ h : Heuristic, ∃ t, Reachable (R.ncfg h fun r => (s.rank r).data.side) t ∧
      ∀ r < R.nRanks, (t.rank r).phase = .finished := by
    intro h
    have Ln := linked_ncfg L h fun r => (s.rank r).data.side
    obtain ⟨n, t, hrun, hf⟩ := traverse_finishes Ln hb (by simp [Prio.ncfg]) hx hac
    exact ⟨t, hrun.reachable .init, hf⟩
  have main : ∃ p0 : Nat → Table,
    (let M := R.maxBLevel fun r => (s.rank r).data
     let side := fun r => (s.rank r).data.side
     match intra with
     | 0 => ∀ r, p0 r = copyTable R.nAngles (R.mesh r).nCells (rand r) (old r)
     | 1 => ∀ r, p0 r = copyTable R.nAngles (R.mesh r).nCells (s.rank r).data.cell (old r)
     | 2 => ∃ s', Reachable (R.ncfg bfds side) s' ∧ (∀ r < R.nRanks, (s'.rank r).phase = .finished) ∧
         ∀ r, p0 r = (s'.rank r).data
     | 3 => ∃ s', Reachable (R.ncfg (dfds M) side) s' ∧
         (∀ r < R.nRanks, (s'.rank r).phase = .finished) ∧ ∀ r, p0 r = (s'.rank r).data
     | 4 => ∃ s', Reachable (R.ncfg (dfhds M) side) s' ∧
         (∀ r < R.nRanks, (s'.rank r).phase = .finished) ∧ ∀ r, p0 r = (s'.rank r).data
     | _ => p0 = old) := by
    dsimp only
    split
    · exact ⟨_, fun _ => rfl⟩
    · exact ⟨_, fun _ => rfl⟩
    · obtain ⟨t, h1, h2⟩ := hnf bfds
      exact ⟨_, t, h1, h2, fun _ => rfl⟩
    · obtain ⟨t, h1, h2⟩ := hnf (dfds _)
      exact ⟨_, t, h1, h2, fun _ => rfl⟩
    · obtain ⟨t, h1, h2⟩ := hnf (dfhds _)
      exact ⟨_, t, h1, h2, fun _ => rfl⟩
    · exact ⟨_, rfl⟩
  obtain ⟨p0, hp0⟩ := main
  exact ⟨_, s, hs, hf, p0, hp0, fun _ => rfl⟩

end

end Verif.Priorities
