import Verif.Schedule.Timetable
import Verif.Schedule.Examples

/-!
# The requests of a step of a scheduled sweep (C110)

`Sweeper::sweep` keeps the requests of a step's sends in a vector and passes `&mpiRequests[0]` to
`MPI_Waitall` (src/Sweeper.cc:423-433, 474-478). In a step without sends the vector is empty, and C++ leaves
`mpiRequests[0]` undefined.
-/
namespace Verif.Schedule
open Classical List
open Verif.Traverse Verif.Priorities

/-- The groups whose sends share a vector of requests, with the destinations of step `k` on rank `r`
(`send`, src/Sweeper.cc:112-144; one request or three for each): all groups in OriginalTycho1
(src/Sweeper.cc:423-427), the thread's own in OriginalTycho2 (474-475). -/
def stepRequests (sched : Nat → State) (groups : List Nat) (r k : Nat) : List (Nat × Nat) :=
  groups.flatMap fun g => (((sched g).sendProcs r).getD k []).map fun q => (g, q)

/-- `MPI_Waitall(mpiRequests.size(), &mpiRequests[0], ...)` (src/Sweeper.cc:433, 477-478): the sends waited
for, `none` being undefined behaviour. -/
def waitStep (sched : Nat → State) (groups : List Nat) (r k : Nat) : Option (List (Nat × Nat)) :=
  ((stepRequests sched groups r k)[0]?).map fun _ => stepRequests sched groups r k

/-- `maxNSteps` (src/Sweeper.cc:384-387) of rank `r`. -/
def maxNSteps (sched : Nat → State) (nGroups r : Nat) : Nat :=
  (List.range nGroups).foldl (fun n g => max n ((sched g).workOrders r).length) 0

section
variable {G : Graph} {mate : Loc → Option Loc} {prio : Nat → Nat → Nat → Nat} {s : State}

/-- The last step of a schedule sends nothing: what a message sets free is listed in a later step. -/
theorem last_silent (J : Joined G mate) (hac : Acyclic G mate) (h : Ordering G prio s) {p k : Nat} (hp : p < G.nRanks)
    (hk : (s.workOrders p).length ≤ k + 1) : (s.sendProcs p).getD k [] = [] := by
  by_contra hne
  obtain ⟨q, hq⟩ := List.exists_mem_of_ne_nil _ hne
  obtain ⟨sp, hsp, hqs, -⟩ := getD_mem hq
  have hqr := ((procs_ok h.1 p).1 sp (List.mem_of_getElem? hsp)).2 q hqs
  obtain ⟨l1, l2, hpm⟩ := plan_matches J h.1 hp hqr
  have hsz := (schedule_size J h.1).2 p hp q hqr
  have hkl : k < (s.workOrders p).length := by rw [← l1]; exact (List.getElem?_eq_some_iff.1 hsp).1
  have hd := List.getElem?_eq_getElem hkl
  obtain ⟨w, hw, a, ha, f, hf, hc, hr⟩ := ((hpm k sp _ _ hsp (List.getElem?_eq_getElem (by omega)) hd).2).1 hqs
  have hal : a < G.angles.length := (List.getElem?_eq_some_iff.1 ha).1
  have hga : G.angles.getD a 0 = w.angle := by rw [List.getD_eq_getElem?_getD, ha]; rfl
  have hwf : w ∈ (s.workOrders p).flatten := List.mem_flatten.2 ⟨_, List.getElem_mem hkl, hw⟩
  obtain ⟨hnd, hin⟩ := schedule_once J h.1 hp
  have hx : G.In ⟨p, w.cell, f⟩ := ⟨hp, (hin w hwf).1⟩
  obtain ⟨y, hm, hy, hyne⟩ := mate_of_far J hx hc hr
  have hyin := J.mate_in _ _ hx hm
  have hsym := J.mate_symm _ _ hx hm
  have hwait : G.wait y.rank a y.cell y.face = true := by
    rw [J.sync y _ a hyin hsym hal]; exact hf
  have hcount := schedule_complete J hac h hyin.1 hal hyin.2
  have hmem : (⟨y.cell, G.angles.getD a 0⟩ : Work) ∈ (s.workOrders y.rank).flatten := by
    rw [← List.count_pos_iff]; omega
  obtain ⟨l, hl, hyl⟩ := List.mem_flatten.1 hmem
  obtain ⟨i, hi⟩ := List.mem_iff_getElem?.1 hl
  obtain ⟨m1, m2, rfl⟩ := List.append_of_mem hyl
  have hil := (List.getElem?_eq_some_iff.1 hi).1
  have hord := (schedule_order J h.1 hyin.1 hal ⟨m2, hi⟩ hsym hwait).2 (by dsimp only; exact fun e => hyne (hy.symm.trans e.symm))
  obtain ⟨l', hl', hwl⟩ := hord
  dsimp only at hl' hwl
  rw [hga] at hwl
  obtain ⟨j, hj⟩ := List.mem_iff_getElem?.1 hl'
  have hji : j < i := by
    have := (List.getElem?_eq_some_iff.1 hj).1
    rw [List.length_take] at this; omega
  rw [List.getElem?_take_of_lt hji] at hj
  have hw' : w ∈ l' := hwl
  obtain ⟨u, hu⟩ := List.mem_iff_getElem?.1 hw'
  obtain ⟨v, hv⟩ := List.mem_iff_getElem?.1 hw
  have e1 : (s.workOrders p).getD j [] = l' := by rw [List.getD_eq_getElem?_getD, hj]; rfl
  have e2 : (s.workOrders p).getD k [] = (s.workOrders p)[k] := List.getD_eq_getElem _ _ hkl
  have := (flatten_unique hnd (by rw [e1]; exact hu) (by rw [e2]; exact hv)).1
  rw [hy] at hil
  omega

end

theorem le_maxNSteps (sched : Nat → State) (nGroups r : Nat) {g : Nat} (hg : g < nGroups) :
    ((sched g).workOrders r).length ≤ maxNSteps sched nGroups r := by
  have : ∀ (l : List Nat) (n : Nat), n ≤ l.foldl (fun n g => max n ((sched g).workOrders r).length) n ∧
      ∀ g ∈ l, ((sched g).workOrders r).length ≤ l.foldl (fun n g => max n ((sched g).workOrders r).length) n := by
    intro l
    induction l with
    | nil => intro n; simp
    | cons b l ih =>
      intro n
      rw [List.foldl_cons]
      obtain ⟨h1, h2⟩ := ih (max n ((sched b).workOrders r).length)
      refine ⟨le_trans (le_max_left _ _) h1, fun g hg => ?_⟩
      rcases List.mem_cons.1 hg with rfl | hg
      · exact le_trans (le_max_right _ _) h1
      · exact h2 g hg
  exact (this _ 0).2 g (List.mem_range.2 hg)

/-- C110, what holds: in a step in which some group of the vector sends, the call waits for exactly the
planned sends. Missing: steps without a send (`wait_last`). -/
theorem waitStep_partial (sched : Nat → State) (groups : List Nat) (r k : Nat)
    (h : ∃ g ∈ groups, ∃ q, q ∈ ((sched g).sendProcs r).getD k []) :
    ∃ l, waitStep sched groups r k = some l ∧
      ∀ g q, (g, q) ∈ l ↔ g ∈ groups ∧ q ∈ ((sched g).sendProcs r).getD k [] := by
  have hmem : ∀ g q, (g, q) ∈ stepRequests sched groups r k ↔ g ∈ groups ∧ q ∈ ((sched g).sendProcs r).getD k [] := by
    intro g q
    simp only [stepRequests, List.mem_flatMap, List.mem_map, Prod.mk.injEq]
    constructor
    · rintro ⟨g', h1, q', h2, rfl, rfl⟩; exact ⟨h1, h2⟩
    · rintro ⟨h1, h2⟩; exact ⟨g, h1, q, h2, rfl, rfl⟩
  obtain ⟨g, hg, q, hq⟩ := h
  have hne := List.length_pos_of_mem ((hmem g q).2 ⟨hg, hq⟩)
  exact ⟨_, by rw [waitStep, List.getElem?_eq_getElem hne, Option.map_some], hmem⟩

/-- C110: the call is defined exactly in steps in which some group of the vector sends. -/
theorem waitStep_iff (sched : Nat → State) (groups : List Nat) (r k : Nat) :
    (waitStep sched groups r k).isSome ↔ ∃ g ∈ groups, ∃ q, q ∈ ((sched g).sendProcs r).getD k [] := by
  constructor
  · intro h
    cases hl : stepRequests sched groups r k with
    | nil => simp [waitStep, hl] at h
    | cons e l =>
      have he : e ∈ stepRequests sched groups r k := by rw [hl]; simp
      simp only [stepRequests, List.mem_flatMap, List.mem_map] at he
      obtain ⟨g, hg, q, hq, -⟩ := he
      exact ⟨g, hg, q, hq⟩
  · intro h
    obtain ⟨l, hl, -⟩ := waitStep_partial sched groups r k h
    rw [hl]; rfl

theorem forward_acyclic {K : Type} [AddCommGroup K] [LinearOrder K] [IsOrderedAddMonoid K] {P : Plan K} {mate : Loc → Option Loc} (F : P.Fits mate)
    (hac : P.Acyclic mate) : Acyclic P.forward mate := by
  intro a ha t ht
  have ha : a < P.angles.length := ha
  refine hac (P.angles.getD a 0) ?_ t (Relation.TransGen.mono (fun _ _ hu => (up_iff F).1 hu) _ _ ht)
  rw [List.getD_eq_getElem _ _ ha]
  exact List.getElem_mem ha

/-- C110, what fails: in the last step of every sweep along schedules, of either type, on every rank, the
call is undefined. -/
theorem wait_last {K : Type} [AddCommGroup K] [LinearOrder K] [IsOrderedAddMonoid K] {nGroups : Nat} {P : Nat → Plan K} {mate : Loc → Option Loc}
    {prio : Nat → Nat → Nat → Nat → Nat} {sched : Nat → State} (F : ∀ g < nGroups, (P g).Fits mate)
    (hac : ∀ g < nGroups, (P g).Acyclic mate) (h : ∀ g < nGroups, Ordering (P g).forward (prio g) (sched g))
    {r k : Nat} (hr : ∀ g < nGroups, r < (P g).nRanks) (hk : k + 1 = maxNSteps sched nGroups r)
    {groups : List Nat} (hg : ∀ g ∈ groups, g < nGroups) :
    waitStep sched groups r k = none := by
  rw [← Option.not_isSome_iff_eq_none, waitStep_iff]
  rintro ⟨g, hgg, q, hq⟩
  have hlt := hg g hgg
  rw [last_silent (joined_forward (F g hlt)) (forward_acyclic (F g hlt) (hac g hlt)) (h g hlt) (hr g hlt) (by rw [hk]; exact le_maxNSteps sched nGroups r hlt)] at hq
  simp at hq

/-- Every pair of the example is listed, so there is a step. -/
theorem ex_steps {prio : Nat → Nat → Nat → Nat} {s : State} (h : Ordering exPlan.forward prio s) :
    0 < (s.workOrders 0).length := by
  have := (schedule_topological exPlan_fits exPlan_acyclic h (r := 0) (by decide)).1 0 (by decide) 7 (by decide)
  rcases Nat.eq_zero_or_pos (s.workOrders 0).length with h0 | h0
  · rw [List.length_eq_zero_iff] at h0
    simp [h0] at this
  · exact h0

/-- C110, the witness: the mesh of `exPlan` on two ranks with one group. -/
theorem waitStep_violated : ∃ (P : Plan Int) (mate : Loc → Option Loc) (s : State), P.Fits mate ∧ P.Acyclic mate ∧
    Ordering P.forward (fun _ _ _ => 0) s ∧ ∃ k < (s.workOrders 0).length, waitStep (fun _ => s) [0] 0 k = none := by
  obtain ⟨s, hs⟩ := (schedule_returns_iff exPlan_fits fun _ _ _ => 0).2 (.inl (by decide))
  have h0 := ex_steps hs
  refine ⟨exPlan, exMate, s, exPlan_fits, exPlan_acyclic, hs, (s.workOrders 0).length - 1, by omega, ?_⟩
  refine wait_last (nGroups := 1) (P := fun _ => exPlan) (fun _ _ => exPlan_fits) (fun _ _ => exPlan_acyclic)
    (prio := fun _ _ _ _ => 0) (fun _ _ => hs) (fun _ _ => by decide) ?_ (by simp)
  show _ = max 0 (s.workOrders 0).length
  omega

/-- C110: on the same mesh some step of rank 0 sends to rank 1, so `waitStep_partial` applies to it. -/
example (prio : Nat → Nat → Nat → Nat) (s : State) (h : Ordering exPlan.forward prio s) :
    ∃ k l, waitStep (fun _ => s) [0] 0 k = some l ∧ (0, 1) ∈ l := by
  have hc := (schedule_topological exPlan_fits exPlan_acyclic h (r := 0) (by decide)).1 1 (by decide) 7 (by decide)
  obtain ⟨d, hd, hw⟩ := List.mem_flatten.1 (List.count_pos_iff.1 (by omega :
    0 < (s.workOrders 0).flatten.count ⟨1, 7⟩))
  obtain ⟨k, hk⟩ := List.mem_iff_getElem?.1 hd
  have hkl := (List.getElem?_eq_some_iff.1 hk).1
  have J := joined_forward exPlan_fits
  obtain ⟨l1, l2, hpm⟩ := plan_matches J h.1 (p := 0) (q := 1) (by decide) (by decide)
  have hsz := (schedule_size J h.1).2 0 (by decide) 1 (by decide)
  have e1 := List.getElem?_eq_getElem (l := s.sendProcs 0) (i := k) (by omega)
  have e2 := List.getElem?_eq_getElem (l := s.recvProcs 1) (i := k) (by omega)
  have hq : 1 ∈ (s.sendProcs 0)[k]'(by omega) := by
    refine (hpm k _ _ d e1 e2 hk).2.2 ⟨_, hw, 0, by decide, 2, ?_⟩
    decide
  have hq' : 1 ∈ (s.sendProcs 0).getD k [] := by rw [List.getD_eq_getElem _ _ (by omega)]; exact hq
  obtain ⟨l, h1, h2⟩ := waitStep_partial (fun _ => s) [0] 0 k ⟨0, by simp, 1, hq'⟩
  exact ⟨k, l, h1, (h2 0 1).2 ⟨by simp, hq'⟩⟩

end Verif.Schedule
