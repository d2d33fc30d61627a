import Verif.Schedule.SeekLemmas
import Mathlib.Data.Finset.Prod
import Mathlib.Data.Fintype.EquivFin
import Mathlib.Order.WellFounded

/-!
# Priorities of the schedule: what they are, and when the constructor hangs (C66)
-/
set_option linter.unusedSectionVars false
set_option linter.unusedVariables false

namespace Verif.Schedule
open Classical List Verif.Traverse

variable {K : Type} [AddCommGroup K] [LinearOrder K] [IsOrderedAddMonoid K]
  {P : Plan K} {mate : Loc → Option Loc}

/-- Cell `c` is upwind of `c'`, both on rank `r`. -/
def Plan.Within (P : Plan K) (mate : Loc → Option Loc) (r g c c' : Nat) : Prop :=
  P.Upwind mate g (r, c) (r, c')

/-- No cycle of cells on rank `r` in a direction of the group. -/
def Plan.LocallyAcyclic (P : Plan K) (mate : Loc → Option Loc) (r : Nat) : Prop :=
  ∀ g ∈ P.angles, ∀ c, ¬ Relation.TransGen (P.Within mate r g) c c

theorem Plan.LocallyAcyclic.at {r : Nat} (h : P.LocallyAcyclic mate r) {a : Nat}
    (ha : a < P.angles.length) : ∀ c, ¬ Relation.TransGen (P.Within mate r (P.angles.getD a 0)) c c :=
  h _ (by rw [List.getD_eq_getElem _ _ ha]; exact List.getElem_mem ha)

/-- A mesh without cycles has none on a rank. -/
theorem locally_of_acyclic (h : P.Acyclic mate) (r : Nat) : P.LocallyAcyclic mate r := by
  intro g hg c hc
  have key : ∀ c c', Relation.TransGen (P.Within mate r g) c c' →
      Relation.TransGen (P.Upwind mate g) (r, c) (r, c') := by
    intro c c' h
    induction h with
    | single h => exact .single h
    | tail _ h ih => exact .tail ih h
  exact h g hg (r, c) (key c c hc)

/-- A face of cell `c` with a cell `y` downwind of it, by more than the tolerance. -/
def Plan.Down (P : Plan K) (mate : Loc → Option Loc) (r g c : Nat) (f : Face) (y : Loc) : Prop :=
  mate ⟨r, c, f⟩ = some y ∧ P.tol < P.dot r g c f

section
variable (F : P.Fits mate)
include F

theorem down_iff {r a c : Nat} {f : Face} (hr : r < P.nRanks) (hc : c < (P.mesh r).nCells) :
    P.hasChild r a c f = true ↔ ∃ y, P.Down mate r (P.angles.getD a 0) c f y := by
  rw [hasChild_iff F (x := ⟨r, c, f⟩) ⟨hr, hc⟩, Option.ne_none_iff_exists']
  constructor
  · rintro ⟨⟨y, h1⟩, h2⟩; exact ⟨y, h1, h2⟩
  · rintro ⟨y, h1, h2⟩; exact ⟨⟨y, h1⟩, h2⟩

theorem within_iff {r a c n : Nat} (hr : r < P.nRanks) (ha : a < P.angles.length) :
    P.Within mate r (P.angles.getD a 0) c n ↔
      c < (P.mesh r).nCells ∧ ∃ f y, P.Down mate r (P.angles.getD a 0) c f y ∧ y.rank = r ∧ y.cell = n := by
  constructor
  · rintro ⟨x, y, hx, hm, hd, h1, h2⟩
    obtain ⟨xr, xc, xf⟩ := x
    obtain ⟨yr, yc, yf⟩ := y
    injection h1 with h1 h3
    injection h2 with h2 h4
    simp only at h1 h2 h3 h4
    subst h1; subst h2; subst h3; subst h4
    have hin := F.mate_in _ _ hx hm
    refine ⟨hin.2, yf, _, ⟨F.mate_symm _ _ hx hm, ?_⟩, rfl, rfl⟩
    have := F.opposite _ _ hx hm (P.angles.getD a 0)
      (by rw [List.getD_eq_getElem _ _ ha]; exact List.getElem_mem ha)
    simp only at this hd
    rw [this]
    exact lt_neg_of_lt_neg hd
  · rintro ⟨hc, f, y, ⟨h1, h2⟩, rfl, rfl⟩
    have hin : P.In ⟨y.rank, c, f⟩ := ⟨hr, hc⟩
    refine ⟨y, ⟨y.rank, c, f⟩, F.mate_in _ _ hin h1, F.mate_symm _ _ hin h1, ?_, rfl, rfl⟩
    rw [F.opposite _ _ hin h1 (P.angles.getD a 0)
      (by rw [List.getD_eq_getElem _ _ ha]; exact List.getElem_mem ha)]
    exact neg_lt_neg h2

theorem within_lt {r a c n : Nat} (hr : r < P.nRanks) (ha : a < P.angles.length)
    (h : P.Within mate r (P.angles.getD a 0) c n) : c < (P.mesh r).nCells ∧ n < (P.mesh r).nCells := by
  obtain ⟨hc, f, y, ⟨h1, h2⟩, h3, h4⟩ := (within_iff F hr ha).1 h
  have := F.mate_in ⟨r, c, f⟩ y ⟨hr, hc⟩ h1
  refine ⟨hc, ?_⟩
  have h5 := this.2
  rwa [h3, h4] at h5

end

theorem acc_of_irrefl {R : Nat → Nat → Prop} {n : Nat} (h : ∀ x y, R x y → x < n)
    (hac : ∀ x, ¬ Relation.TransGen R x x) (x : Nat) : Acc R x := by
  let S : Fin n → Fin n → Prop := fun i j => Relation.TransGen R i j
  have : IsTrans (Fin n) S := ⟨fun _ _ _ h1 h2 => h1.trans h2⟩
  have : Std.Irrefl S := ⟨fun i => hac i⟩
  have hwf : WellFounded S := Finite.wellFounded_of_trans_of_irrefl S
  have key : ∀ i : Fin n, Acc R i := by
    intro i
    induction i using hwf.induction with
    | _ i ih => exact ⟨_, fun y hy => ih ⟨y, h y i hy⟩ (.single hy)⟩
  exact ⟨_, fun y hy => key ⟨y, h y x hy⟩⟩

section
variable (F : P.Fits mate)
include F

/-- Within a rank without cycles one cannot follow the wind for ever. -/
theorem within_acc {r a : Nat} (hr : r < P.nRanks) (ha : a < P.angles.length)
    (hac : P.LocallyAcyclic mate r) (c : Nat) :
    Acc (fun n c => P.Within mate r (P.angles.getD a 0) c n) c := by
  refine acc_of_irrefl (n := (P.mesh r).nCells) (fun n c h => (within_lt F hr ha h).2) ?_ c
  intro c h
  refine hac.at ha c ?_
  exact Relation.transGen_swap.1 h

theorem wait_got {r a c n : Nat} {D : List (Nat × Nat)} {f : Face} (hr : r < P.nRanks)
    (hc : c < (P.mesh r).nCells) (hg : P.inner.wait r a c f = true → Got (innerMate mate) r (fun _ => []) D a c f)
    (h1 : P.hasChild r a c f = true) (h2 : (P.mesh r).adjCell c f = some n) : (a, n) ∈ D := by
  obtain ⟨y, hy, hd⟩ := hg (by
    show (P.hasChild r a c f && ((P.mesh r).adjCell c f).isSome) = true
    rw [h1, h2]; rfl)
  obtain ⟨h3, h4⟩ := innerMate_some.1 hy
  rw [if_pos h4] at hd
  have := (F.near ⟨r, c, f⟩ y ⟨hr, hc⟩ h3 h4).1
  simp only at this
  rw [h2] at this
  injection this with this
  rwa [this]

/-- One pass of the second loop. -/
theorem SeekInv.pass {r : Nat} (hr : r < P.nRanks) {side : Table} {k : Seek} {s : Seeker}
    {D : List (Nat × Nat)} (h : SeekInv P mate r side k s D) {w : Todo} {d : List Work}
    (ht : TopoSort P.backward r (fun _ _ => 0) s.todo [] w d) :
    ∃ E, SeekInv P mate r side k ⟨w, P.updatePriorities r k d s.prio, (s.solved + d.length) % 2 ^ 64⟩ (D ++ E) ∧
      E.length ≤ P.maxCellsPerStep % 2 ^ 32 ∧
      (P.maxCellsPerStep % 2 ^ 32 ≠ 0 → s.todo.queue ≠ [] → E ≠ []) := by
  have J := joined_inner F
  obtain ⟨E, hE, hS, hlen, hne⟩ := ht.inner.sorted J hr h.rank
  rw [List.nil_append] at hE
  have hlenE : d.length = E.length := by rw [hE, List.length_map]
  have hin : ∀ t ∈ D ++ E, t.1 < P.angles.length ∧ t.2 < (P.mesh r).nCells := by
    intro t ht
    obtain ⟨h1, h2, -⟩ := (hS.inv.mem t).1 (by simp only [List.mem_append] at ht ⊢; tauto)
    exact ⟨h1, h2⟩
  have horder : ∀ l1 t l2, D ++ E = l1 ++ t :: l2 → ∀ f, P.inner.wait r t.1 t.2 f = true →
      Got (innerMate mate) r (fun _ => []) l1 t.1 t.2 f := by
    intro l1 t l2 he f hw
    rcases List.append_eq_append_iff.1 he with ⟨m, h1, h2⟩ | ⟨m, h1, h2⟩
    · rw [h1]
      exact hS.order m t l2 h2 f hw
    · cases m with
      | nil =>
        rw [List.append_nil] at h1
        have := hS.order [] t l2 (by simpa using h2.symm) f hw
        rwa [List.append_nil, h1] at this
      | cons x m =>
        injection h2 with h2 h3
        subst h2
        exact h.order l1 t m h1 f hw
  have hnd : (D ++ E).Nodup := (List.nodup_append.1 hS.inv.nodup).2.1
  refine ⟨E, ⟨hS.inv, horder, ?_, ?_⟩, ?_, ?_⟩
  · show (s.solved + d.length) % 2 ^ 64 = _
    rw [h.count, hlenE, List.length_append, Nat.mod_add_mod]
  · -- the priorities, pair by pair
    show ∀ a c, a < P.angles.length → c < (P.mesh r).nCells → ∀ v,
      P.updatePriorities r k d s.prio a c ≤ v ↔
        ∀ f, P.seekVal r side k (D ++ E) (P.updatePriorities r k d s.prio) a c f ≤ v
    have key : ∀ (l2 l1 : List (Nat × Nat)) (p : Table), E = l1 ++ l2 →
        (∀ a c, a < P.angles.length → c < (P.mesh r).nCells → ∀ v,
          p a c ≤ v ↔ ∀ f, P.seekVal r side k (D ++ l1) p a c f ≤ v) →
        ∀ a c, a < P.angles.length → c < (P.mesh r).nCells → ∀ v,
          P.updatePriorities r k (l2.map P.inner.work) p a c ≤ v ↔
            ∀ f, P.seekVal r side k (D ++ E) (P.updatePriorities r k (l2.map P.inner.work) p) a c f ≤ v := by
      intro l2
      induction l2 with
      | nil =>
        intro l1 p he hp
        rw [List.append_nil] at he
        subst he
        exact hp
      | cons t l2 ih =>
        intro l1 p he hp
        have htE : t ∈ D ++ E := by rw [he]; simp
        obtain ⟨ht1, ht2⟩ := hin t htE
        have hgl : P.backward.glAngle (P.inner.work t).angle = t.1 :=
          glAngle_get (joined_backward F) (a := t.1) ht1
        have hstep : P.updatePriorities r k ((t :: l2).map P.inner.work) p =
            P.updatePriorities r k (l2.map P.inner.work) ((List.finRange 4).foldl (P.passUp r k t) p) := by
          unfold Plan.updatePriorities
          rw [List.map_cons, List.foldl_cons, hgl]
          rfl
        rw [hstep]
        refine ih (l1 ++ [t]) _ (by rw [he]; simp) ?_
        rw [← List.append_assoc]
        refine passUp_spec F hr ht1 ht2 (fun u hu => (hin u (by rw [he]; simp only [List.mem_append] at hu ⊢; tauto)).2)
          ?_ ?_ hp
        · intro hmem
          rw [he, ← List.append_assoc] at hnd
          exact (List.nodup_append.1 hnd).2.2 t hmem t (by simp) rfl
        · intro u hu f n h1 h2
          have huc : u.2 < (P.mesh r).nCells :=
            (hin u (by rw [he]; simp only [List.mem_append, List.mem_cons] at hu ⊢; tauto)).2
          obtain ⟨m1, m2, hm⟩ := List.append_of_mem hu
          have hmem : (u.1, n) ∈ m1 := by
            refine wait_got F hr huc (fun hw => ?_) h1 h2
            refine horder m1 u (m2 ++ l2) ?_ f hw
            have : D ++ E = D ++ l1 ++ [t] ++ l2 := by rw [he]; simp
            rw [this, hm]; simp
          rcases List.eq_nil_or_concat m2 with rfl | ⟨m3, x, rfl⟩
          · have := List.append_inj_left' hm rfl
            rw [this]; exact hmem
          · have h4 : D ++ l1 ++ [t] = m1 ++ u :: m3 ++ [x] := by rw [hm]; simp
            have := List.append_inj_left' h4 rfl
            rw [this]
            simp [hmem]
    rw [hE]
    refine key E [] s.prio rfl ?_
    rw [List.append_nil]
    exact h.prio
  · rw [← hlenE]; exact hlen (Nat.zero_le _)
  · intro h1 h2
    exact hne (Nat.pos_of_ne_zero h1) h2

/-- Everything is done when nothing is left in the queue and there are no cycles. -/
theorem SeekInv.complete {r : Nat} (hr : r < P.nRanks) {side : Table} {k : Seek} {s : Seeker}
    {D : List (Nat × Nat)} (h : SeekInv P mate r side k s D) (hac : P.LocallyAcyclic mate r)
    (hq : s.todo.queue = []) {a c : Nat} (ha : a < P.angles.length) (hc : c < (P.mesh r).nCells) :
    (a, c) ∈ D := by
  have key := within_acc F hr ha hac c
  induction key with
  | intro c _ ih =>
    have := h.rank.mem_of_got (a := a) (c := c) ha hc (by
      intro f hw
      have hin : P.In ⟨r, c, f⟩ := ⟨hr, hc⟩
      have hw : (P.hasChild r a c f && ((P.mesh r).adjCell c f).isSome) = true := hw
      rw [Bool.and_eq_true] at hw
      obtain ⟨y, hy⟩ := Option.ne_none_iff_exists'.1 ((adjCell_isSome F hin).1 hw.2)
      obtain ⟨h1, h2⟩ := innerMate_some.1 hy
      refine ⟨y, hy, ?_⟩
      rw [if_pos h2]
      have hwi : P.Within mate r (P.angles.getD a 0) c y.cell := by
        refine (within_iff F hr ha).2 ⟨hc, f, y, ⟨h1, ?_⟩, h2, rfl⟩
        exact ((hasChild_iff F hin).1 hw.1).2
      exact ih y.cell hwi (within_lt F hr ha hwi).2)
    rw [hq, List.nil_append] at this
    exact this

omit F in
theorem SeekInv.length_le {r : Nat} {side : Table} {k : Seek} {s : Seeker}
    {D : List (Nat × Nat)} (h : SeekInv P mate r side k s D) :
    D.length ≤ P.angles.length * (P.mesh r).nCells ∧
    (D.length = P.angles.length * (P.mesh r).nCells ↔
      ∀ a c, a < P.angles.length → c < (P.mesh r).nCells → (a, c) ∈ D) := by
  have hnd : D.Nodup := (List.nodup_append.1 h.rank.nodup).2.1
  have hsub : D.toFinset ⊆ Finset.range P.angles.length ×ˢ Finset.range (P.mesh r).nCells := by
    intro t ht
    obtain ⟨h1, h2, -⟩ := (h.rank.mem t).1 (by simp [List.mem_toFinset.1 ht])
    rw [Finset.mem_product, Finset.mem_range, Finset.mem_range]
    exact ⟨h1, h2⟩
  have hcard : (Finset.range P.angles.length ×ˢ Finset.range (P.mesh r).nCells).card =
      P.angles.length * (P.mesh r).nCells := by simp
  have hD := List.toFinset_card_of_nodup hnd
  refine ⟨?_, ?_, ?_⟩
  · rw [← hD, ← hcard]; exact Finset.card_le_card hsub
  · intro he a c ha hc
    have := Finset.eq_of_subset_of_card_le hsub (by rw [hcard, hD, he])
    rw [← List.mem_toFinset, this]
    simp [ha, hc]
  · intro hall
    rw [← hD, ← hcard]
    congr 1
    refine Finset.Subset.antisymm hsub ?_
    intro t ht
    rw [Finset.mem_product, Finset.mem_range, Finset.mem_range] at ht
    exact List.mem_toFinset.2 (hall t.1 t.2 ht.1 ht.2)

omit F in
theorem SeekInv.sought_iff {r : Nat} {side : Table} {k : Seek} {s : Seeker}
    {D : List (Nat × Nat)} (h : SeekInv P mate r side k s D)
    (hs : P.angles.length * (P.mesh r).nCells < 2 ^ 64) :
    P.sought r s ↔ ∀ a c, a < P.angles.length → c < (P.mesh r).nCells → (a, c) ∈ D := by
  rw [← h.length_le.2, Plan.sought, h.count, Nat.mod_eq_of_lt hs, Nat.mod_eq_of_lt (h.length_le.1.trans_lt hs)]

theorem Plan.Seeking.inv {r : Nat} (hr : r < P.nRanks) {side : Table} {k : Seek} {i : Nat} {s : Seeker}
    (h : P.Seeking r side k i s) (hs : P.angles.length * (P.mesh r).nCells < 2 ^ 64) :
    ∃ D, SeekInv P mate r side k s D ∧ (P.maxCellsPerStep % 2 ^ 32 = 0 → D = []) ∧
      (P.maxCellsPerStep % 2 ^ 32 ≠ 0 → P.LocallyAcyclic mate r → i ≤ D.length) := by
  induction h with
  | init => exact ⟨[], SeekInv.init side k, fun _ => rfl, fun _ _ => Nat.le_refl _⟩
  | pass i s w d _ hnd ht ih =>
    obtain ⟨D, hD, h0, hi⟩ := ih
    obtain ⟨E, hE, hlen, hne⟩ := hD.pass F hr ht
    refine ⟨D ++ E, hE, ?_, ?_⟩
    · intro hz
      rw [h0 hz]
      rw [hz, Nat.le_zero] at hlen
      exact List.eq_nil_of_length_eq_zero hlen
    · intro hz hac
      have hq : s.todo.queue ≠ [] := by
        intro hq
        exact hnd ((hD.sought_iff hs).2 fun a c ha hc => hD.complete F hr hac hq ha hc)
      have := List.length_pos_iff.2 (hne hz hq)
      have := hi hz hac
      rw [List.length_append]
      omega

/-- C66: every pass of `neighborPriorities` sorts something when the rank has no cycle. -/
theorem seek_passes_le {r : Nat} (hr : r < P.nRanks) {side : Table} {k : Seek} {i : Nat} {s : Seeker}
    (hs : P.angles.length * (P.mesh r).nCells < 2 ^ 64) (hz : P.maxCellsPerStep % 2 ^ 32 ≠ 0)
    (hac : P.LocallyAcyclic mate r) (h : P.Seeking r side k i s) :
    i ≤ P.angles.length * (P.mesh r).nCells := by
  obtain ⟨D, hD, -, hi⟩ := h.inv F hr hs
  exact (hi hz hac).trans hD.length_le.1

omit F in
/-- The loop can always go on. -/
theorem seek_progress {r : Nat} {side : Table} {k : Seek} {i : Nat} {s : Seeker}
    (h : P.Seeking r side k i s) (hn : ¬ P.sought r s) : ∃ s', P.Seeking r side k (i + 1) s' := by
  obtain ⟨w, d, ht⟩ := TopoSort.exists P.backward r (fun _ _ => 0) P.backward.maxStep s.todo [] (by simp)
  exact ⟨_, .pass i s w d h hn ht⟩

/-- C66: `neighborPriorities` ends exactly when there is nothing to do, or the step size does not
truncate to zero and the rank has no cycle in a direction of the group. -/
theorem seek_returns_iff {r : Nat} (hr : r < P.nRanks) (side : Table) (k : Seek)
    (hs : P.angles.length * (P.mesh r).nCells < 2 ^ 64) :
    (∃ p, P.NeighborPriorities r side k p) ↔ P.angles.length * (P.mesh r).nCells = 0 ∨
      (P.maxCellsPerStep % 2 ^ 32 ≠ 0 ∧ P.LocallyAcyclic mate r) := by
  constructor
  · rintro ⟨p, i, s, h, hd, -⟩
    obtain ⟨D, hD, h0, -⟩ := h.inv F hr hs
    have hall := (hD.sought_iff hs).1 hd
    by_cases hzero : P.angles.length * (P.mesh r).nCells = 0
    · exact .inl hzero
    refine .inr ⟨fun hz => ?_, ?_⟩
    · rw [← hD.length_le.2.2 hall, h0 hz] at hzero
      exact hzero rfl
    · intro g hg c hc
      obtain ⟨a, ha, rfl⟩ := List.getElem_of_mem hg
      rw [← List.getD_eq_getElem _ 0 ha] at hc
      -- downwind cells come earlier in `D`
      have key : ∀ c n, P.Within mate r (P.angles.getD a 0) c n → D.idxOf (a, n) < D.idxOf (a, c) := by
        intro c n hw
        obtain ⟨hc, hn⟩ := within_lt F hr ha hw
        obtain ⟨-, f, y, hdn, h1, h2⟩ := (within_iff F hr ha).1 hw
        obtain ⟨l1, l2, hl⟩ := List.append_of_mem (hall a c ha hc)
        have hnd : D.Nodup := (List.nodup_append.1 hD.rank.nodup).2.1
        have hadj : (P.mesh r).adjCell c f = some n := by
          have := (F.near ⟨r, c, f⟩ y ⟨hr, hc⟩ hdn.1 h1).1
          simp only at this
          rw [this, h2]
        have hmem : (a, n) ∈ l1 := wait_got F hr hc (fun hw => hD.order l1 (a, c) l2 hl f hw)
          ((down_iff F hr hc).2 ⟨y, hdn⟩) hadj
        have hcl : (a, c) ∉ l1 := by
          intro h
          rw [hl] at hnd
          exact (List.nodup_append.1 hnd).2.2 _ h _ (by simp) rfl
        rw [hl, List.idxOf_append_of_mem hmem, List.idxOf_append_of_notMem hcl, List.idxOf_cons_self]
        exact (List.idxOf_lt_length_of_mem hmem).trans_le (Nat.le_add_right _ _)
      have key2 : ∀ c n, Relation.TransGen (P.Within mate r (P.angles.getD a 0)) c n →
          D.idxOf (a, n) < D.idxOf (a, c) := by
        intro c n h
        induction h with
        | single h => exact key _ _ h
        | tail _ h ih => exact (key _ _ h).trans ih
      exact absurd (key2 c c hc) (lt_irrefl _)
  · rintro (hzero | ⟨hz, hac⟩)
    · refine ⟨_, 0, _, .init, ?_, rfl⟩
      rw [Plan.sought, hzero]; rfl
    · by_contra hno
      have hno' : ∀ i s, P.Seeking r side k i s → ¬ P.sought r s := fun i s h hd => hno ⟨_, i, s, h, hd, rfl⟩
      have : ∀ n, ∃ s, P.Seeking r side k n s := by
        intro n
        induction n with
        | zero => exact ⟨_, .init⟩
        | succ n ih =>
          obtain ⟨s, h⟩ := ih
          exact seek_progress h (hno' n s h)
      obtain ⟨s, h⟩ := this (P.angles.length * (P.mesh r).nCells + 1)
      have := seek_passes_le F hr hs hz hac h
      omega

/-- C66: the priority of a cell is the greatest of what its downwind neighbours pass on: those on the
rank their own priority plus `parent`, those on other ranks their level times `scale` plus `shift`,
all in arithmetic modulo `2 ^ 64`. It is zero if there are none. -/
theorem seek_greatest {r : Nat} (hr : r < P.nRanks) {side : Table} {k : Seek} {p : Table}
    (hs : P.angles.length * (P.mesh r).nCells < 2 ^ 64) (h : P.NeighborPriorities r side k p)
    {a c : Nat} (ha : a < P.angles.length) (hc : c < (P.mesh r).nCells) :
    IsGreatest {v | v = 0 ∨ ∃ f y, P.Down mate r (P.angles.getD a 0) c f y ∧
      v = if y.rank = r then (p a y.cell + k.parent) % 2 ^ 64
        else (side a ((P.mesh r).side c f) * k.scale + k.shift) % 2 ^ 64} (p a c) := by
  obtain ⟨i, s, hsk, hd, rfl⟩ := h
  obtain ⟨D, hD, -, -⟩ := hsk.inv F hr hs
  have hall := (hD.sought_iff hs).1 hd
  have hval : ∀ f, P.seekVal r side k D s.prio a c f = 0 ∧ (∀ y, ¬ P.Down mate r (P.angles.getD a 0) c f y) ∨
      ∃ y, P.Down mate r (P.angles.getD a 0) c f y ∧ P.seekVal r side k D s.prio a c f =
        if y.rank = r then (s.prio a y.cell + k.parent) % 2 ^ 64
        else (side a ((P.mesh r).side c f) * k.scale + k.shift) % 2 ^ 64 := by
    intro f
    by_cases hch : P.hasChild r a c f = true
    · obtain ⟨y, hy⟩ := (down_iff F hr hc).1 hch
      refine .inr ⟨y, hy, ?_⟩
      unfold Plan.seekVal
      rw [if_pos hch]
      by_cases hyr : y.rank = r
      · have h1 := (F.near ⟨r, c, f⟩ y ⟨hr, hc⟩ hy.1 hyr).1
        simp only at h1
        have h2 := (F.mate_in ⟨r, c, f⟩ y ⟨hr, hc⟩ hy.1).2
        rw [hyr] at h2
        rw [h1, if_pos hyr]
        dsimp only
        rw [if_pos (hall a y.cell ha h2)]
      · have h1 := (F.far ⟨r, c, f⟩ y ⟨hr, hc⟩ hy.1 hyr).1
        simp only at h1
        rw [h1, if_neg hyr]
    · refine .inl ⟨by unfold Plan.seekVal; rw [if_neg hch], fun y hy => hch ((down_iff F hr hc).2 ⟨y, hy⟩)⟩
  have hle := hD.prio a c ha hc
  constructor
  · by_cases h0 : s.prio a c = 0
    · exact .inl h0
    · refine .inr ?_
      have : ¬ s.prio a c ≤ s.prio a c - 1 := by omega
      rw [hle] at this
      push Not at this
      obtain ⟨f, hf⟩ := this
      have hf2 := (hle (s.prio a c)).1 (le_refl _) f
      have hf3 : P.seekVal r side k D s.prio a c f = s.prio a c := by omega
      rcases hval f with ⟨h1, -⟩ | ⟨y, hy, h1⟩
      · omega
      · exact ⟨f, y, hy, by rw [← h1, hf3]⟩
  · rintro v (rfl | ⟨f, y, hy, rfl⟩)
    · exact Nat.zero_le _
    · have hf2 := (hle (s.prio a c)).1 (le_refl _) f
      rcases hval f with ⟨-, h1⟩ | ⟨y', hy', h1⟩
      · exact absurd hy (h1 y)
      · have he : y' = y := by
          have h3 := hy.1
          rw [hy'.1] at h3
          exact Option.some.inj h3
        subst he
        rw [← h1]; exact hf2

end

end Verif.Schedule
