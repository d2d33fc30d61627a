import Verif.Schedule.Lemmas3
import Mathlib.Algebra.Order.Group.Unbundled.Basic
import Mathlib.Algebra.BigOperators.Group.Finset.Basic
import Mathlib.Algebra.Order.BigOperators.Group.Finset
import Mathlib.Order.WellFounded
import Mathlib.Data.Fintype.Prod

/-!
# The schedule is a topological order (C25) and its communication plan matches (C26)
-/
set_option linter.unusedSectionVars false

namespace Verif.Schedule
open Classical List Verif.Traverse

variable {G : Graph} {mate : Loc → Option Loc} {prio : Nat → Nat → Nat → Nat} {s : State}

/-! ### Any graph -/

section
variable (J : Joined G mate)
include J

/-- Entries of the schedule of a rank are cells of that rank with angles of the group, none twice. -/
theorem schedule_once (h : Reached G prio s) {r : Nat} (hr : r < G.nRanks) :
    (s.workOrders r).flatten.Nodup ∧ ∀ w ∈ (s.workOrders r).flatten,
      w.cell < (G.mesh r).nCells ∧ w.angle ∈ G.angles := by
  obtain ⟨E, hE⟩ := h.inv J
  have heq : (s.workOrders r).flatten = (E r).flatten.map G.work := by
    rw [hE.orders r hr, List.map_flatten]
  have hR := hE.rank r hr
  have hval : ∀ t ∈ (E r).flatten, t.1 < G.angles.length ∧ t.2 < (G.mesh r).nCells := fun t ht => by
    obtain ⟨h1, h2, -⟩ := (hR.mem t).1 (by simp [ht])
    exact ⟨h1, h2⟩
  rw [heq]
  constructor
  · refine List.Nodup.map_on ?_ (hR.nodup.sublist (List.sublist_append_right _ _))
    intro t ht t' ht' he
    exact work_inj J (hval t ht).1 (hval t' ht').1 he
  · intro w hw
    obtain ⟨t, ht, rfl⟩ := List.mem_map.1 hw
    obtain ⟨h1, h2⟩ := hval t ht
    refine ⟨h2, ?_⟩
    simp only [Graph.work]
    rw [List.getD_eq_getElem _ _ h1]
    exact List.getElem_mem h1

theorem listed_iff {E : Nat → List (List (Nat × Nat))} (hE : Inv G mate s E) {r : Nat}
    (hr : r < G.nRanks) {a c : Nat} (ha : a < G.angles.length) :
    Listed (s.workOrders r) ⟨c, G.angles.getD a 0⟩ ↔ (a, c) ∈ (E r).flatten := by
  have hR := hE.rank r hr
  unfold Listed
  rw [hE.orders r hr]
  constructor
  · rintro ⟨l, hl, hw⟩
    obtain ⟨l', hl', rfl⟩ := List.mem_map.1 hl
    obtain ⟨t, ht, he⟩ := List.mem_map.1 hw
    have htf : t ∈ (E r).flatten := List.mem_flatten.2 ⟨l', hl', ht⟩
    obtain ⟨h1, h2, -⟩ := (hR.mem t).1 (by simp [htf])
    have : t = (a, c) := work_inj J h1 ha he
    rwa [this] at htf
  · intro hm
    obtain ⟨l, hl, ht⟩ := List.mem_flatten.1 hm
    exact ⟨_, List.mem_map.2 ⟨l, hl, rfl⟩, List.mem_map.2 ⟨_, ht, rfl⟩⟩

/-- A listed pair comes after its upwind neighbours: on the same rank earlier in the step or in an
earlier step, across ranks in an earlier step. -/
theorem schedule_order (h : Reached G prio s) {r : Nat} (hr : r < G.nRanks) {i a c : Nat}
    (ha : a < G.angles.length) {l1 : List Work}
    (hl : ListedAt (s.workOrders r) i l1 ⟨c, G.angles.getD a 0⟩) {f : Face} {y : Loc}
    (hm : mate ⟨r, c, f⟩ = some y) (hw : G.wait r a c f = true) :
    (y.rank = r → (⟨y.cell, G.angles.getD a 0⟩ : Work) ∈ ((s.workOrders r).take i).flatten ++ l1) ∧
    (y.rank ≠ r → Listed ((s.workOrders y.rank).take i) ⟨y.cell, G.angles.getD a 0⟩) := by
  obtain ⟨E, hE⟩ := h.inv J
  have hR := hE.rank r hr
  obtain ⟨l2, hl⟩ := hl
  rw [hE.orders r hr, List.getElem?_map, Option.map_eq_some_iff] at hl
  obtain ⟨l, hl, heq⟩ := hl
  obtain ⟨m1, mt, hlm, h1, h2⟩ := List.map_eq_append_iff.1 heq
  obtain ⟨t, m2, rfl, ht, h3⟩ := List.map_eq_cons_iff.1 h2
  subst hlm
  have htf : t ∈ (E r).flatten := by
    rw [List.mem_flatten]
    exact ⟨_, List.mem_of_getElem? hl, by simp⟩
  obtain ⟨k1, k2, -⟩ := (hR.mem t).1 (by simp [htf])
  have hta : t = (a, c) := work_inj J k1 ha ht
  subst hta
  obtain ⟨y', hy', hd⟩ := hE.order r hr i m1 _ m2 hl f hw
  simp only at hy'
  rw [hm] at hy'
  injection hy' with hy'
  subst hy'
  constructor
  · intro hyr
    rw [if_pos hyr] at hd
    have : (⟨y.cell, G.angles.getD a 0⟩ : Work) = G.work (a, y.cell) := rfl
    rw [this, hE.orders r hr, ← List.map_take, ← List.map_flatten, ← h1, ← List.map_append]
    exact List.mem_map.2 ⟨_, hd, rfl⟩
  · intro hyr
    rw [if_neg hyr] at hd
    have hyin := J.mate_in _ _ (show G.In ⟨r, c, f⟩ from ⟨hr, k2⟩) hm
    obtain ⟨l, hl, hmem⟩ := List.mem_flatten.1 hd
    refine ⟨l.map G.work, ?_, List.mem_map.2 ⟨_, hmem, rfl⟩⟩
    rw [hE.orders _ hyin.1, ← List.map_take]
    exact List.mem_map.2 ⟨l, hl, rfl⟩

/-- At most `maxCellsPerStep` entries a step, and equally many steps on all ranks. -/
theorem schedule_size (h : Reached G prio s) : (∀ r < G.nRanks, ∀ l ∈ s.workOrders r, l.length ≤ G.maxStep) ∧
    ∀ r < G.nRanks, ∀ q < G.nRanks, (s.workOrders r).length = (s.workOrders q).length := by
  obtain ⟨E, hE⟩ := h.inv J
  constructor
  · intro r hr l hl
    rw [hE.orders r hr] at hl
    obtain ⟨l', hl', rfl⟩ := List.mem_map.1 hl
    rw [List.length_map]
    exact hE.size r hr l' hl'
  · obtain ⟨k, hk⟩ := hE.steps
    intro r hr q hq
    rw [hE.orders r hr, hE.orders q hq, List.length_map, List.length_map, hk r hr, hk q hq]

theorem listed_acc (h : Reached G prio s) {a : Nat} (ha : a < G.angles.length) :
    ∀ (i r : Nat) (l1 : List Work) (c : Nat), r < G.nRanks →
    ListedAt (s.workOrders r) i l1 ⟨c, G.angles.getD a 0⟩ → Acc (Up G mate a) (r, c) := by
  intro i
  induction i using Nat.strong_induction_on with
  | _ i ih =>
    have hprev : ∀ r c, r < G.nRanks → Listed ((s.workOrders r).take i) ⟨c, G.angles.getD a 0⟩ →
        Acc (Up G mate a) (r, c) := by
      intro r c hr ⟨l, hl, hw⟩
      obtain ⟨j, hj⟩ := List.mem_iff_getElem?.1 hl
      have hji : j < i := by
        by_contra hge
        rw [List.getElem?_eq_none] at hj
        · simp at hj
        · rw [List.length_take]; omega
      rw [List.getElem?_take_of_lt hji] at hj
      obtain ⟨m1, m2, rfl⟩ := List.append_of_mem hw
      exact ih j hji r m1 c hr ⟨m2, hj⟩
    intro r l1
    induction hn : l1.length using Nat.strong_induction_on generalizing l1 with
    | _ n ihn =>
      intro c hr hl
      refine ⟨_, fun t ht => ?_⟩
      obtain ⟨x, y, hx, hm, hw, rfl, he⟩ := ht
      injection he with h1 h2
      obtain ⟨xr, xc, xf⟩ := x
      simp only at h1 h2 hw
      subst h1; subst h2
      obtain ⟨hnear, hfar⟩ := schedule_order J h hr ha hl hm hw
      by_cases hyr : y.rank = r
      · have hmem := hnear hyr
        rw [hyr]
        rw [List.mem_append] at hmem
        rcases hmem with hmem | hmem
        · obtain ⟨l, hl', hw'⟩ := List.mem_flatten.1 hmem
          exact hprev r _ hr ⟨l, hl', hw'⟩
        · obtain ⟨m1, m2, hs⟩ := List.append_of_mem hmem
          obtain ⟨l2, hl2⟩ := hl
          refine ihn m1.length (by rw [← hn, hs]; simp) m1 rfl _ hr
            ⟨m2 ++ (⟨c, G.angles.getD a 0⟩ : Work) :: l2, ?_⟩
          rw [hl2, hs]
          simp
      · exact hprev _ _ (J.mate_in _ _ hx hm).1 (hfar hyr)

/-- When the construction ends, the schedule lists exactly the pairs that do not depend on a cycle. -/
theorem schedule_lists_iff (h : Ordering G prio s) {r a c : Nat} (hr : r < G.nRanks)
    (ha : a < G.angles.length) (hc : c < (G.mesh r).nCells) :
    Listed (s.workOrders r) ⟨c, G.angles.getD a 0⟩ ↔ Acc (Up G mate a) (r, c) := by
  constructor
  · rintro ⟨l, hl, hw⟩
    obtain ⟨i, hi⟩ := List.mem_iff_getElem?.1 hl
    obtain ⟨m1, m2, rfl⟩ := List.append_of_mem hw
    exact listed_acc J h.1 ha i r m1 c hr ⟨m2, hi⟩
  · intro hacc
    obtain ⟨E, hE⟩ := h.1.inv J
    have key : ∀ t : Nat × Nat, Acc (Up G mate a) t → t.1 < G.nRanks → t.2 < (G.mesh t.1).nCells →
        (a, t.2) ∈ (E t.1).flatten := by
      intro t ht
      induction ht with
      | intro t _ ih =>
        intro hr hc
        have hR := hE.rank t.1 hr
        have hq : (s.todo t.1).queue = [] := h.2 t.1 hr
        have := hR.mem_of_got ha hc (by
          intro f hw
          have hin : G.In ⟨t.1, t.2, f⟩ := ⟨hr, hc⟩
          obtain ⟨y, hy⟩ := Option.ne_none_iff_exists'.1 (J.wait_mate _ a hin hw)
          have hyin := J.mate_in _ _ hin hy
          have := ih (y.rank, y.cell) ⟨_, y, hin, hy, hw, rfl, rfl⟩ hyin.1 hyin.2
          refine ⟨y, hy, ?_⟩
          split
          · rename_i hyr; rw [← hyr]; exact this
          · exact this)
        rw [hq, List.nil_append] at this
        exact this
    exact (listed_iff J hE hr ha).2 (key (r, c) hacc hr hc)

/-- Acyclic graphs: every pair is listed, once. -/
theorem schedule_complete (hac : Acyclic G mate) (h : Ordering G prio s) {r a c : Nat}
    (hr : r < G.nRanks) (ha : a < G.angles.length) (hc : c < (G.mesh r).nCells) :
    (s.workOrders r).flatten.count ⟨c, G.angles.getD a 0⟩ = 1 := by
  have hl : Listed (s.workOrders r) ⟨c, G.angles.getD a 0⟩ := by
    rw [schedule_lists_iff J h hr ha hc]
    -- the relation lives on a finite set
    let T : Finset (Nat × Nat) := (Finset.range G.nRanks).biUnion fun r =>
      (Finset.range (G.mesh r).nCells).image fun c => (r, c)
    have hT : ∀ t : Nat × Nat, t ∈ T ↔ t.1 < G.nRanks ∧ t.2 < (G.mesh t.1).nCells := by
      intro t
      simp only [T, Finset.mem_biUnion, Finset.mem_range, Finset.mem_image]
      constructor
      · rintro ⟨q, hq, c, hc, rfl⟩; exact ⟨hq, hc⟩
      · rintro ⟨h1, h2⟩; exact ⟨t.1, h1, t.2, h2, rfl⟩
    let R : T → T → Prop := fun t t' => Relation.TransGen (Up G mate a) t.1 t'.1
    have : IsTrans T R := ⟨fun _ _ _ h1 h2 => h1.trans h2⟩
    have : Std.Irrefl R := ⟨fun t => hac a ha t.1⟩
    have hwf : WellFounded R := Finite.wellFounded_of_trans_of_irrefl R
    have key : ∀ t : T, Acc (Up G mate a) t.1 := by
      intro t
      induction t using hwf.induction with
      | _ t ih =>
        refine ⟨_, fun u hu => ?_⟩
        have hu' := hu
        obtain ⟨x, y, hx, hm, hw, rfl, he⟩ := hu'
        have hyin := J.mate_in _ _ hx hm
        exact ih ⟨(y.rank, y.cell), (hT _).2 ⟨hyin.1, hyin.2⟩⟩ (.single hu)
    exact key ⟨(r, c), (hT _).2 ⟨hr, hc⟩⟩
  obtain ⟨l, h1, h2⟩ := hl
  exact List.count_eq_one_of_mem (schedule_once J h.1 hr).1 (List.mem_flatten.2 ⟨l, h1, h2⟩)

end

/-! ### Termination -/

/-- `n` passes of the loop. -/
inductive Steps (G : Graph) (prio : Nat → Nat → Nat → Nat) : Nat → State → State → Prop
  | refl (s : State) : Steps G prio 0 s s
  | tail (n : Nat) (s s1 s2 : State) : Steps G prio n s s1 → Step G prio s1 s2 → Steps G prio (n + 1) s s2

theorem Steps.reached {n : Nat} {s s' : State} (h : Steps G prio n s s') (h0 : Reached G prio s) :
    Reached G prio s' := by
  induction h with
  | refl => exact h0
  | tail n s s1 s2 _ hs ih => exact .step _ _ (ih h0) hs

/-- The number of pairs of all ranks. -/
def Graph.tasks (G : Graph) : Nat := ∑ r ∈ Finset.range G.nRanks, G.angles.length * (G.mesh r).nCells

/-- Every pass makes progress: there are no more passes than pairs. -/
theorem schedule_steps_le (J : Joined G mate) (hpos : 0 < G.maxStep) {n : Nat}
    (h : Steps G prio n G.init s) : n ≤ G.tasks := by
  have key : ∃ E, Inv G mate s E ∧ n ≤ ∑ r ∈ Finset.range G.nRanks, (E r).flatten.length := by
    generalize hi : G.init = s0 at h
    induction h with
    | refl => subst hi; exact ⟨_, Inv.init G mate, by simp⟩
    | tail n s s1 s2 _ hs ih =>
      obtain ⟨E, hE, hn⟩ := ih hi
      obtain ⟨F, hF, -, hne⟩ := hE.step J hs
      refine ⟨_, hF, ?_⟩
      obtain ⟨r, hr, hr'⟩ := hne hpos
      have : ∑ r ∈ Finset.range G.nRanks, (E r).flatten.length <
          ∑ r ∈ Finset.range G.nRanks, (E r ++ [F r]).flatten.length := by
        refine Finset.sum_lt_sum (fun q _ => by simp) ⟨r, Finset.mem_range.2 hr, ?_⟩
        have := List.length_pos_of_ne_nil hr'
        simp only [List.flatten_append, List.length_append, List.flatten_cons, List.flatten_nil,
          List.append_nil]
        omega
      omega
  obtain ⟨E, hE, hn⟩ := key
  refine hn.trans (Finset.sum_le_sum fun r hr => ?_)
  have hR := hE.rank r (Finset.mem_range.1 hr)
  have hnd : (E r).flatten.Nodup := hR.nodup.sublist (List.sublist_append_right _ _)
  have hsub : (E r).flatten.toFinset ⊆ Finset.range G.angles.length ×ˢ Finset.range (G.mesh r).nCells := by
    intro t ht
    obtain ⟨h1, h2, -⟩ := (hR.mem t).1 (by simp [List.mem_toFinset.1 ht])
    simp [h1, h2]
  have := Finset.card_le_card hsub
  rw [List.toFinset_card_of_nodup hnd] at this
  simpa using this

/-- As long as the loop has not ended it can go on. -/
theorem schedule_progress (h : ¬ G.AllDone s) : ∃ s', Step G prio s s' := by
  choose w d hwd using fun r => TopoSort.exists G r (prio r) G.maxStep (s.todo r) [] (by simp)
  exact ⟨_, .mk s w d h fun r _ => hwd r⟩

/-- The construction returns, cyclic dependencies or not. -/
theorem schedule_returns (J : Joined G mate) (hpos : 0 < G.maxStep) (prio : Nat → Nat → Nat → Nat) :
    ∃ s, Ordering G prio s := by
  by_contra hno
  push Not at hno
  have : ∀ n, ∃ s, Steps G prio n G.init s := by
    intro n
    induction n with
    | zero => exact ⟨_, .refl _⟩
    | succ n ih =>
      obtain ⟨s, hs⟩ := ih
      have hr := hs.reached .init
      obtain ⟨s', hs'⟩ := schedule_progress (prio := prio) (fun hd => hno s ⟨hr, hd⟩)
      exact ⟨s', .tail _ _ _ _ hs hs'⟩
  obtain ⟨s, hs⟩ := this (G.tasks + 1)
  have := schedule_steps_le J hpos hs
  omega

/-- With a step size of zero (`maxCellsPerStep` a multiple of 2^32) the loop never ends. -/
theorem zero_step_never_returns (h0 : G.maxStep = 0) {r : Nat} (hr : r < G.nRanks)
    (hq : (G.start r).queue ≠ []) (h : Reached G prio s) : ¬ G.AllDone s := by
  have hstep : ∀ {r w d w' d'}, TopoSort G r (prio r) w d w' d' → w' = w ∧ d' = d := by
    intro r w d w' d' ht
    cases ht with
    | stop => exact ⟨rfl, rfl⟩
    | pop l1 t l2 _ hlt => omega
  have key : ∀ s, Reached G prio s → ∀ r < G.nRanks, s.todo r = G.start r := by
    intro s h
    induction h with
    | init => intro r _; rfl
    | step s s' _ hs ih =>
      cases hs with
      | mk w d hnd htopo =>
        intro r hr
        have hw := fun q (hq : q < G.nRanks) => hstep (htopo q hq)
        have hout : ∀ q < G.nRanks, G.outbox q (d q) r = [] := by
          intro q hq
          rw [(hw q hq).2]; rfl
        simp only [Graph.after, Graph.receive]
        have : ∀ (N : List Nat), (∀ q ∈ N, q < G.nRanks) → ∀ w : Todo,
          N.foldl (fun w q => (G.inbox r (G.outbox q (d q) r)).foldl Todo.credit w) w = w := by
          intro N
          induction N with
          | nil => intro _ _; rfl
          | cons q N ihN =>
            intro hN w
            rw [List.foldl_cons, hout q (hN q (by simp))]
            exact ihN (fun q' hq' => hN q' (by simp [hq'])) w
        rw [this _ (fun q hq => (mem_neighbors.1 hq).1), (hw r hr).1, ih r hr]
  intro hd
  have := hd r hr
  rw [key s h r hr] at this
  exact hq this

/-! ### The communication plan -/

theorem outbox_neighbor (J : Joined G mate) {p q : Nat} (hp : p < G.nRanks) {d : List Work}
    (hd : ∀ w ∈ d, w.cell < (G.mesh p).nCells) (h : G.outbox p d q ≠ []) : q ∈ G.neighbors p := by
  obtain ⟨e, he⟩ := List.exists_mem_of_ne_nil _ h
  simp only [Graph.outbox, List.mem_flatMap, List.mem_filterMap, List.mem_finRange, true_and] at he
  obtain ⟨w, hw, f, hf⟩ := he
  split at hf <;> [skip; simp at hf]
  rename_i hc
  have hin : G.In ⟨p, w.cell, f⟩ := ⟨hp, hd w hw⟩
  obtain ⟨y, hm, hy, hne⟩ := mate_of_far J hin hc.2.1 hc.2.2
  have hyin := J.mate_in _ _ hin hm
  exact mem_neighbors.2 ⟨hy ▸ hyin.1, w.cell, f, hd w hw, hc.2.1, hc.2.2⟩

/-- The work of a step crosses from rank `p` to rank `q`. -/
def Crosses (G : Graph) (p q : Nat) (d : List Work) : Prop :=
  ∃ w ∈ d, ∃ a, G.angles[a]? = some w.angle ∧ ∃ f, G.free p a w.cell f = true ∧
    (G.mesh p).adjCell w.cell f = none ∧ (G.mesh p).adjRank w.cell f = some q

theorem outbox_iff (J : Joined G mate) {p q : Nat} {d : List Work} (hd : ∀ w ∈ d, w.angle ∈ G.angles) :
    G.outbox p d q ≠ [] ↔ Crosses G p q d := by
  have hidx : ∀ w ∈ d, G.angles[G.glAngle w.angle]? = some w.angle := by
    intro w hw
    have hl : G.angles.idxOf w.angle < G.angles.length := List.idxOf_lt_length_iff.2 (hd w hw)
    rw [Graph.glAngle, List.getElem?_eq_getElem hl, List.getElem_idxOf]
  constructor
  · intro h
    obtain ⟨e, he⟩ := List.exists_mem_of_ne_nil _ h
    simp only [Graph.outbox, List.mem_flatMap, List.mem_filterMap, List.mem_finRange, true_and] at he
    obtain ⟨w, hw, f, hf⟩ := he
    split at hf <;> [skip; simp at hf]
    rename_i hc
    exact ⟨w, hw, _, hidx w hw, f, hc⟩
  · rintro ⟨w, hw, a, ha, f, hc⟩
    have hga : G.glAngle w.angle = a := by
      obtain ⟨hal, hae⟩ := List.getElem?_eq_some_iff.1 ha
      rw [← hae]
      exact J.angles.idxOf_getElem a hal
    have : ((G.mesh p).lgSide ((G.mesh p).side w.cell f), G.glAngle w.angle) ∈ G.outbox p d q := by
      simp only [Graph.outbox, List.mem_flatMap, List.mem_filterMap, List.mem_finRange, true_and]
      refine ⟨w, hw, f, ?_⟩
      rw [hga, if_pos hc]
    exact List.ne_nil_of_mem this

/-- C26: in every step, `p` plans to send to `q` exactly when `q` plans to receive from `p`, which is
when the step's work of `p` has a face leading to `q`. -/
theorem plan_matches (J : Joined G mate) (h : Reached G prio s) {p q : Nat} (hp : p < G.nRanks)
    (hq : q < G.nRanks) :
    (s.sendProcs p).length = (s.workOrders p).length ∧ (s.recvProcs q).length = (s.workOrders q).length ∧
    ∀ (k : Nat) (sp rq : List Nat) (d : List Work), (s.sendProcs p)[k]? = some sp → (s.recvProcs q)[k]? = some rq →
      (s.workOrders p)[k]? = some d → (q ∈ sp ↔ p ∈ rq) ∧ (q ∈ sp ↔ Crosses G p q d) := by
  induction h with
  | init => simp [Graph.init]
  | step s s' hre hs ih =>
    have hre' : Reached G prio s' := .step s s' hre hs
    obtain ⟨ih1, ih2, ih3⟩ := ih
    have hsz := (schedule_size J hre).2 p hp q hq
    have honce := (schedule_once J hre' hp).2
    cases hs with
    | mk w d hnd htopo =>
      simp only [Graph.after] at honce ⊢
      refine ⟨by simp [ih1], by simp [ih2], ?_⟩
      intro k sp rq e h1 h2 h3
      rcases Nat.lt_or_ge k (s.workOrders p).length with hk | hk
      · rw [List.getElem?_append_left (by omega)] at h1 h2 h3
        exact ih3 k sp rq e h1 h2 h3
      · rw [List.getElem?_append_right (by omega)] at h1 h2 h3
        have hk0 : k - (s.workOrders p).length = 0 := by
          by_contra h0
          obtain ⟨m, hm⟩ := Nat.exists_eq_succ_of_ne_zero h0
          rw [hm] at h3
          simp at h3
        rw [ih1, hk0] at h1
        rw [ih2, ← hsz, hk0] at h2
        rw [hk0] at h3
        simp only [List.getElem?_cons_zero, Option.some.injEq] at h1 h2 h3
        subst h1; subst h2; subst h3
        have hd : ∀ v ∈ d p, v.cell < (G.mesh p).nCells ∧ v.angle ∈ G.angles := by
          intro v hv
          exact honce v (by simp [hv])
        have hsend : q ∈ (G.neighbors p).filter (fun q => G.outbox p (d p) q ≠ []) ↔
            G.outbox p (d p) q ≠ [] := by
          rw [List.mem_filter, decide_eq_true_eq]
          exact ⟨fun h => h.2, fun h => ⟨outbox_neighbor J hp (fun w hw => (hd w hw).1) h, h⟩⟩
        have hrecv : p ∈ (G.neighbors q).filter (fun p => G.outbox p (d p) q ≠ []) ↔
            G.outbox p (d p) q ≠ [] := by
          rw [List.mem_filter, decide_eq_true_eq]
          exact ⟨fun h => h.2, fun h =>
            ⟨neighbors_symm J hp (outbox_neighbor J hp (fun w hw => (hd w hw).1) h), h⟩⟩
        rw [hsend, hrecv]
        exact ⟨Iff.rfl, outbox_iff J fun w hw => (hd w hw).2⟩

end Verif.Schedule
