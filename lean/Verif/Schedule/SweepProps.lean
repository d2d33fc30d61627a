import Verif.Schedule.SweepLemmas3
import Verif.Traverse.Props

/-!
# The sweep along schedules: the invariant holds in all states
-/
set_option linter.unusedSectionVars false
set_option linter.unusedVariables false

namespace Verif.Schedule
open Classical List
open Verif.Traverse

variable {D B : Type} {S : Core D B}
  {sim : Nat → D → D → Prop} {mate : Loc → Option Loc} {angles : Nat → List Nat}

theorem SweepInv.start (A : S.Agrees sim) : SweepInv S sim mate angles S.start where
  ordered := fun l1 e l2 h => by simp [Core.start] at h
  data r hr := A.init r hr
  done r _ g _ c a _ := by
    simp only [Done, Core.start, List.not_mem_nil, exists_false, false_iff, Place.upto]
    rintro ⟨k, i, -, h⟩
    omega
  delivered r _ g _ n a _ := by
    simp [Delivered, Core.start, Core.recvUpto]
  chan p _ q _ g _ := by
    simp [Core.inFlight, Core.start, Place.sentUpto]
  buf p _ q _ g _ := by
    simp [Core.start, Core.pending, Core.cross]
  causal p _ q _ g _ k h := by simp [Core.start, Core.recvUpto] at h

section
variable (T : Timetable S mate angles) (L : Linked S.cfg mate) (A : S.Agrees sim)
  (hd : S.cfg.doComm = true)
include T L A hd

theorem SweepInv.move {s s' : SweepState S} (h : SweepInv S sim mate angles s) (hm : Move s s') :
    SweepInv S sim mate angles s' := by
  cases hm with
  | work r g k i w hr hg hp hw => exact h.work T L A hr hg hp hw
  | send r g k i hr hg hp hi _ _ => exact h.send T L hr hg hp hi
  | recv r g k j q m ms hr hg hp hj _ hc => exact h.recv T L A hd hr hg hp hj hc
  | next r k _ hr hall _ =>
    refine h.congr rfl rfl ?_ ?_ ?_
    · intro r'
      simp only [SweepState.next, SweepState.setRank, setAt]
      split
      · rename_i e; rw [e]
      · rfl
    · intro r'
      simp only [SweepState.next, SweepState.setRank, setAt]
      split
      · rename_i e; rw [e]
      · rfl
    · intro r' hr' g hg
      simp only [SweepState.next, SweepState.setRank, setAt]
      split
      · rename_i e
        subst e
        obtain ⟨h1, h2, -⟩ := hall g hg
        unfold Vars.heard at h2
        have hpl : (s.rank r').place g = ⟨k, .comm (S.recvAt g r' k).length⟩ := by
          generalize (s.rank r').place g = pl at h1 h2
          obtain ⟨st, ph⟩ := pl
          simp only at h1 h2
          subst h1; rw [h2]
        rw [hpl]
        simp [Place.upto, Core.pending, Place.sentUpto, Core.recvUpto]
      · exact ⟨rfl, rfl, rfl, fun _ => rfl⟩
  | enter r g k _ hr hg hst hh _ =>
    refine h.congr rfl rfl ?_ ?_ ?_
    · intro r'
      simp only [SweepState.enter, SweepState.setRank, setAt]
      split
      · rename_i e; rw [e]; rfl
      · rfl
    · intro r'
      simp only [SweepState.enter, SweepState.setRank, setAt]
      split
      · rename_i e; rw [e]; rfl
      · rfl
    · intro r' hr' g' hg'
      simp only [SweepState.enter, SweepState.setRank, setAt]
      split
      · rename_i e
        subst e
        simp only [Vars.setPlace, setAt]
        split
        · rename_i e
          subst e
          unfold Vars.heard at hh
          have hpl : (s.rank r').place g' = ⟨k, .comm (S.recvAt g' r' k).length⟩ := by
            generalize (s.rank r').place g' = pl at hst hh
            obtain ⟨st, ph⟩ := pl
            simp only at hst hh
            subst hst; rw [hh]
          rw [hpl]
          simp [Place.upto, Core.pending, Place.sentUpto, Core.recvUpto]
        · exact ⟨rfl, rfl, rfl, fun _ => rfl⟩
      · exact ⟨rfl, rfl, rfl, fun _ => rfl⟩
  | leave r g k _ hr hg hp _ =>
    refine h.congr rfl rfl ?_ ?_ ?_
    · intro r'
      simp only [SweepState.leave, SweepState.setRank, setAt]
      split
      · rename_i e; rw [e]; rfl
      · rfl
    · intro r'
      simp only [SweepState.leave, SweepState.setRank, setAt]
      split
      · rename_i e; rw [e]; rfl
      · rfl
    · intro r' hr' g' hg'
      simp only [SweepState.leave, SweepState.setRank, setAt]
      split
      · rename_i e
        subst e
        simp only [Vars.setPlace, setAt]
        split
        · rename_i e
          subst e
          rw [hp]
          simp [Place.upto, Core.pending, Place.sentUpto, Core.recvUpto]
        · exact ⟨rfl, rfl, rfl, fun _ => rfl⟩
      · exact ⟨rfl, rfl, rfl, fun _ => rfl⟩

theorem Swept.inv {s : SweepState S} (h : Swept s) : SweepInv S sim mate angles s := by
  induction h with
  | start => exact SweepInv.start A
  | move s s' _ hm ih => exact ih.move T L A hd hm

end

theorem le_maxSteps {g r : Nat} (hg : g < S.nAngleGroups) :
    ((S.sched g).workOrders r).length ≤ S.maxSteps r := by
  unfold Core.maxSteps
  have key : ∀ (l : List Nat) (m : Nat), m ≤ l.foldl (fun m g => max m ((S.sched g).workOrders r).length) m ∧
      ∀ g ∈ l, ((S.sched g).workOrders r).length ≤
        l.foldl (fun m g => max m ((S.sched g).workOrders r).length) m := by
    intro l
    induction l with
    | nil => intro m; simp
    | cons x l ih =>
      intro m
      rw [List.foldl_cons]
      obtain ⟨h1, h2⟩ := ih (max m ((S.sched x).workOrders r).length)
      refine ⟨le_trans (le_max_left _ _) h1, ?_⟩
      intro y hy
      rcases List.mem_cons.1 hy with rfl | hy
      · exact le_trans (le_max_right _ _) h1
      · exact h2 y hy
  exact (key _ 0).2 g (List.mem_range.2 hg)

theorem workAt_lt {g r k i : Nat} {w : Work} (hg : g < S.nAngleGroups) (h : (S.workAt g r k)[i]? = some w) :
    k < S.maxSteps r := by
  refine lt_of_lt_of_le ?_ (le_maxSteps hg)
  by_contra hk
  unfold Core.workAt at h
  rw [List.getD_eq_default _ _ (by omega)] at h
  simp at h

section
variable (T : Timetable S mate angles) (L : Linked S.cfg mate) (A : S.Agrees sim)
  (hd : S.cfg.doComm = true)
include T

theorem SweepInv.complete {s : SweepState S} (h : SweepInv S sim mate angles s) (hov : s.Over) :
    Complete S.cfg s.log := by
  intro r c a hr hc ha
  obtain ⟨g, hg, hag⟩ := T.cover a ha
  obtain ⟨k, i, hi⟩ := T.listed g hg r hr c hc a hag
  rw [h.done r hr g hg c a hag, hov r hr g hg]
  exact ⟨k, i, hi, Or.inl (workAt_lt hg hi)⟩

end

end Verif.Schedule
