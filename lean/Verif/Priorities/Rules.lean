import Verif.Priorities.Lemmas

set_option linter.unusedSectionVars false

namespace Verif.Priorities
open Classical List Verif.Traverse

theorem put_same (m : Table) (i j v : Nat) : put m i j v i j = v := by simp [put, setAt]
theorem put_ne (m : Table) {i j i' j' : Nat} (v : Nat) (h : i' ≠ i ∨ j' ≠ j) :
    put m i j v i' j' = m i' j' := by
  by_cases hi : i' = i
  · subst hi
    simp [put, setAt, h.resolve_left (by simp)]
  · simp [put, setAt, hi]

/-- Largest of a function over the faces. -/
def best (f : Face → Nat) : Nat := (List.finRange 4).foldl (fun m x => Nat.max m (f x)) 0

theorem le_best (f : Face → Nat) (x : Face) : f x ≤ best f := by
  have : best f = max (max (max (max 0 (f 0)) (f 1)) (f 2)) (f 3) := rfl
  rw [this]
  fin_cases x <;> simp

theorem best_le {f : Face → Nat} {n : Nat} (h : ∀ x, f x ≤ n) : best f ≤ n := by
  have : best f = max (max (max (max 0 (f 0)) (f 1)) (f 2)) (f 3) := rfl
  rw [this]
  simp [h]

theorem best_mem (f : Face → Nat) : best f = 0 ∨ ∃ x, best f = f x := by
  by_cases h : ∃ x, best f = f x
  · exact Or.inr h
  · left
    by_contra h0
    have : best f ≤ best f - 1 := best_le fun x => by
      have := le_best f x
      have : f x ≠ best f := fun e => h ⟨x, e.symm⟩
      omega
    omega

theorem best_congr {f g : Face → Nat} (h : ∀ x, f x = g x) : best f = best g := by
  rw [show f = g from funext h]

/-! ### B-levels -/

/-- Value found through a face. -/
def bVal (side v : Nat → Nat) (adj : Option Nat) : BoundaryType → Nat
  | .outIntBdry => u64 (side (adj.getD 0) + 1)
  | .outInt => u64 (v (adj.getD 0) + 1)
  | _ => 0

theorem face_fold (cell angle : Nat) (adj : Face → Option Nat) (bdry : Face → BoundaryType) (d : BLevels)
    (hne : ∀ f, bdry f = .outInt → (adj f).getD 0 ≠ cell) (l : List Face) :
    (l.foldl (BLevels.face cell angle adj bdry) d).side = d.side ∧
    (l.foldl (BLevels.face cell angle adj bdry) d).max = d.max ∧
    (∀ c a, (c ≠ cell ∨ a ≠ angle) →
      (l.foldl (BLevels.face cell angle adj bdry) d).cell c a = d.cell c a) ∧
    (l.foldl (BLevels.face cell angle adj bdry) d).cell cell angle =
      l.foldl (fun m x => Nat.max m (bVal (d.side · angle) (d.cell · angle) (adj x) (bdry x)))
        (d.cell cell angle) := by
  induction l using List.reverseRecOn with
  | nil => simp
  | append_singleton l x ih =>
    obtain ⟨h1, h2, h3, h4⟩ := ih
    rw [List.foldl_append, List.foldl_append]
    simp only [List.foldl_cons, List.foldl_nil]
    generalize l.foldl (BLevels.face cell angle adj bdry) d = e at h1 h2 h3 h4
    rw [← h4]
    cases hb : bdry x <;> simp only [BLevels.face, hb, bVal]
    · refine ⟨h1, h2, fun c a hca => ?_, ?_⟩
      · rw [put_ne _ _ hca]; exact h3 c a hca
      · rw [put_same, h1]
    · exact ⟨h1, h2, h3, (Nat.max_eq_left (Nat.zero_le _)).symm⟩
    · refine ⟨h1, h2, fun c a hca => ?_, ?_⟩
      · rw [put_ne _ _ hca]; exact h3 c a hca
      · rw [put_same, h3 _ _ (Or.inl (hne x hb))]
    · exact ⟨h1, h2, h3, (Nat.max_eq_left (Nat.zero_le _)).symm⟩
    · exact ⟨h1, h2, h3, (Nat.max_eq_left (Nat.zero_le _)).symm⟩
    · exact ⟨h1, h2, h3, (Nat.max_eq_left (Nat.zero_le _)).symm⟩

theorem bdry_outInt {m : RankMesh} {a c : Nat} {f : Face} (h : bdryType m a c f = .outInt) :
    m.outgoing a c f = true ∧ ∃ n, m.adjCell c f = some n ∧ adjCellsSides m c f = some n := by
  unfold bdryType at h
  split at h
  · rename_i ho
    split at h
    · simp at h
    · split at h
      · simp at h
      · rename_i h1 h2
        refine ⟨ho, ?_⟩
        cases hadj : m.adjCell c f with
        | none =>
          exfalso
          simp only [hadj, true_and] at h1 h2
          tauto
        | some n => exact ⟨n, rfl, by simp [adjCellsSides, hadj]⟩
  · split at h
    · simp at h
    · split at h <;> simp at h

theorem bdry_outIntBdry {m : RankMesh} {a c : Nat} {f : Face} (h : bdryType m a c f = .outIntBdry) :
    m.outgoing a c f = true ∧ m.adjCell c f = none ∧ ∃ q, m.adjRank c f = some q := by
  unfold bdryType at h
  split at h
  · rename_i ho
    split at h
    · rename_i h1
      exact ⟨ho, h1.1, Option.ne_none_iff_exists'.1 h1.2⟩
    · split at h <;> simp at h
  · split at h
    · simp at h
    · split at h <;> simp at h

theorem bdry_of_near {m : RankMesh} {a c : Nat} {f : Face} {n : Nat} (h : m.outgoing a c f = true)
    (hn : m.adjCell c f = some n) : bdryType m a c f = .outInt ∧ adjCellsSides m c f = some n := by
  simp [bdryType, adjCellsSides, h, hn]

theorem bdry_of_far {m : RankMesh} {a c : Nat} {f : Face} {q : Nat} (h : m.outgoing a c f = true)
    (hn : m.adjCell c f = none) (hq : m.adjRank c f = some q) : bdryType m a c f = .outIntBdry := by
  simp [bdryType, h, hn, hq]

/-- The b-level rule. -/
def Prio.bRule (R : Prio) : Rule R.bcfg Nat where
  obs d c a := d.cell c a
  inv _ d := d.side = fun _ _ => 0
  rule r c a v := best fun f =>
    bVal (fun _ => 0) v (adjCellsSides (R.mesh r) c f) (bdryType (R.mesh r) a c f)
  init_inv _ := rfl
  upd_inv r c a d h := by
    show (BLevels.update c a _ _ d).side = _
    rw [← h]
    unfold BLevels.update
    dsimp only
    have key : ∀ (l : List Face) (e : BLevels), (l.foldl (BLevels.face c a
        (adjCellsSides (R.bcfg.mesh r) c) (bdryType (R.bcfg.mesh r) a c)) e).side = e.side := by
      intro l
      induction l with
      | nil => intro e; rfl
      | cons x l ih =>
        intro e
        rw [List.foldl_cons, ih]
        unfold BLevels.face
        cases bdryType (R.bcfg.mesh r) a c x <;> rfl
    rw [key]
  upd_self r c a d h hne := by
    show (BLevels.update c a _ _ d).cell c a = _
    unfold BLevels.update
    dsimp only
    have hne' : ∀ f, bdryType (R.bcfg.mesh r) a c f = .outInt →
        (adjCellsSides (R.bcfg.mesh r) c f).getD 0 ≠ c := by
      intro f hf
      obtain ⟨ho, n, hn, hn'⟩ := bdry_outInt hf
      rw [hn']
      exact hne f n ho hn
    rw [(face_fold c a _ _ { d with cell := put d.cell c a 0 } hne' (List.finRange 4)).2.2.2]
    dsimp only
    rw [put_same]
    unfold best
    congr 1
    funext m x
    congr 1
    unfold bVal
    cases hb : bdryType (R.bcfg.mesh r) a c x <;>
      simp only [show bdryType (R.mesh r) a c x = bdryType (R.bcfg.mesh r) a c x from rfl, hb]
    · rw [show d.side = fun _ _ => 0 from h]
    · rw [put_ne _ _ (Or.inl (hne' x hb))]; rfl
  upd_obs r c a d c' a' hne := by
    show (BLevels.update c a _ _ d).cell c' a' = _
    unfold BLevels.update
    dsimp only
    have key : ∀ (l : List Face) (e : BLevels), (l.foldl (BLevels.face c a
        (adjCellsSides (R.bcfg.mesh r) c) (bdryType (R.bcfg.mesh r) a c)) e).cell c' a' = e.cell c' a' := by
      intro l
      induction l with
      | nil => intro e; rfl
      | cons x l ih =>
        intro e
        rw [List.foldl_cons, ih]
        unfold BLevels.face
        cases bdryType (R.bcfg.mesh r) a c x <;> dsimp only <;> rw [put_ne _ _ hne]
    rw [key]
    exact put_ne _ _ hne
  rule_congr r c a v v' h := by
    apply best_congr
    intro f
    unfold bVal
    cases hb : bdryType (R.mesh r) a c f <;> simp only
    obtain ⟨ho, n, hn, hn'⟩ := bdry_outInt hb
    rw [hn']
    simp only [Option.getD_some]
    rw [h f n ho hn]

/-! ### Neighbour heuristics -/

theorem nface_fold (h : Heuristic) (side : Table) (cell angle : Nat) (adj : Face → Option Nat)
    (bdry : Face → BoundaryType) (p : Table)
    (hne : ∀ f, bdry f = .outInt → (adj f).getD 0 ≠ cell) (l : List Face) :
    (∀ c a, (c ≠ cell ∨ a ≠ angle) →
      (l.foldl (fun p f => put p cell angle
        (Nat.max (p cell angle) (h.face side angle (adj f) (bdry f) p))) p) c a = p c a) ∧
    (l.foldl (fun p f => put p cell angle
        (Nat.max (p cell angle) (h.face side angle (adj f) (bdry f) p))) p) cell angle =
      l.foldl (fun m x => Nat.max m (h.face side angle (adj x) (bdry x) p)) (p cell angle) := by
  induction l using List.reverseRecOn with
  | nil => simp
  | append_singleton l x ih =>
    obtain ⟨h3, h4⟩ := ih
    rw [List.foldl_append, List.foldl_append]
    simp only [List.foldl_cons, List.foldl_nil]
    generalize hq : l.foldl (fun p f => put p cell angle
        (Nat.max (p cell angle) (h.face side angle (adj f) (bdry f) p))) p = q at h3 h4
    refine ⟨fun c a hca => ?_, ?_⟩
    · rw [put_ne _ _ hca]; exact h3 c a hca
    · rw [put_same, h4]
      congr 1
      unfold Heuristic.face
      cases hb : bdry x <;> simp only
      rw [h3 _ _ (Or.inl (hne x hb))]

/-- The rule of the neighbour heuristics. -/
def Prio.nRule (R : Prio) (h : Heuristic) (side : Nat → Table) : Rule (R.ncfg h side) Nat where
  obs p c a := p c a
  inv _ _ := True
  rule r c a v := best fun f =>
    h.face (side r) a (adjCellsSides (R.mesh r) c f) (bdryType (R.mesh r) a c f) (fun n _ => v n)
  init_inv _ := trivial
  upd_inv _ _ _ _ _ := trivial
  upd_self r c a p _ hne := by
    show h.update (side r) c a _ _ p c a = _
    unfold Heuristic.update
    have hne' : ∀ f, bdryType ((R.ncfg h side).mesh r) a c f = .outInt →
        (adjCellsSides ((R.ncfg h side).mesh r) c f).getD 0 ≠ c := by
      intro f hf
      obtain ⟨ho, n, hn, hn'⟩ := bdry_outInt hf
      rw [hn']
      exact hne f n ho hn
    rw [(nface_fold h (side r) c a _ _ (put p c a 0) hne' (List.finRange 4)).2, put_same]
    unfold best
    congr 1
    funext m x
    congr 1
    unfold Heuristic.face
    cases hb : bdryType ((R.ncfg h side).mesh r) a c x <;>
      simp only [show bdryType (R.mesh r) a c x = bdryType ((R.ncfg h side).mesh r) a c x from rfl, hb]
    · rfl
    · rw [put_ne _ _ (Or.inl (hne' x hb))]; rfl
  upd_obs r c a p c' a' hne := by
    show h.update (side r) c a _ _ p c' a' = _
    unfold Heuristic.update
    generalize List.finRange 4 = l
    rw [← put_ne p 0 hne]
    generalize put p c a 0 = q
    induction l generalizing q with
    | nil => rfl
    | cons x l ih => rw [List.foldl_cons, ih, put_ne _ _ hne]
  rule_congr r c a v v' hh := by
    apply best_congr
    intro f
    unfold Heuristic.face
    cases hb : bdryType (R.mesh r) a c f <;> simp only
    obtain ⟨ho, n, hn, hn'⟩ := bdry_outInt hb
    rw [hn']
    simp only [Option.getD_some]
    rw [hh f n ho hn]

end Verif.Priorities
