import Verif.Schedule.Lemmas
import Mathlib.Data.List.Nodup
import Mathlib.Data.List.GetD
import Mathlib.Data.Finset.Max

set_option linter.unusedSectionVars false

namespace Verif.Schedule
open Classical List Verif.Traverse

variable {G : Graph} {mate : Loc → Option Loc}

/-- The work item of an (angle, cell) pair. -/
def Graph.work (G : Graph) (t : Nat × Nat) : Work := ⟨t.2, G.angles.getD t.1 0⟩

theorem glAngle_get (J : Joined G mate) {a : Nat} (ha : a < G.angles.length) :
    G.glAngle (G.angles.getD a 0) = a := by
  rw [Graph.glAngle, List.getD_eq_getElem _ _ ha]
  exact J.angles.idxOf_getElem a ha

theorem work_inj (J : Joined G mate) {t t' : Nat × Nat} (h : t.1 < G.angles.length)
    (h' : t'.1 < G.angles.length) (he : G.work t = G.work t') : t = t' := by
  injection he with h1 h2
  have := congrArg G.glAngle h2
  rw [glAngle_get J h, glAngle_get J h'] at this
  exact Prod.ext this h1

/-- The neighbour across the face of a pair has been done: in this rank's list, or in the list of the
other rank before the step. -/
def Got (mate : Loc → Option Loc) (r : Nat) (Dprev : Nat → List (Nat × Nat)) (D : List (Nat × Nat))
    (a c : Nat) (f : Face) : Prop :=
  ∃ y, mate ⟨r, c, f⟩ = some y ∧ if y.rank = r then (a, y.cell) ∈ D else (a, y.cell) ∈ Dprev y.rank

theorem mate_inj (J : Joined G mate) {x x' y : Loc} (hx : G.In x) (hx' : G.In x') (h : mate x = some y)
    (h' : mate x' = some y) : x = x' := by
  have h1 := J.mate_symm x y hx h
  have h2 := J.mate_symm x' y hx' h'
  rw [h1] at h2
  exact Option.some.inj h2

theorem children_locs (J : Joined G mate) {r : Nat} (hr : r < G.nRanks) {t : Nat × Nat}
    (hc : t.2 < (G.mesh r).nCells) : ∃ L : List (Nat × Nat × Face),
    G.children r t = L.map (fun x => (x.1, x.2.1)) ∧ L.Nodup ∧
    ∀ x, x ∈ L ↔ x.1 = t.1 ∧ ∃ f, mate ⟨r, t.2, f⟩ = some ⟨r, x.2.1, x.2.2⟩ ∧ G.free r t.1 t.2 f = true := by
  refine ⟨(List.finRange 4).filterMap fun f => if G.free r t.1 t.2 f = true then
    (mate ⟨r, t.2, f⟩).bind fun y => if y.rank = r then some (t.1, y.cell, y.face) else none
    else none, ?_, ?_, ?_⟩
  · rw [List.map_filterMap, Graph.children]
    refine List.filterMap_congr fun f _ => ?_
    by_cases hf : G.free r t.1 t.2 f = true
    · rw [if_pos hf, if_pos hf]
      cases hm : mate ⟨r, t.2, f⟩ with
      | none => rw [(J.ext ⟨r, t.2, f⟩ ⟨hr, hc⟩ hm).1]; rfl
      | some y =>
        by_cases hy : y.rank = r
        · rw [J.near ⟨r, t.2, f⟩ y ⟨hr, hc⟩ hm hy]
          simp [hy]
        · rw [(J.far ⟨r, t.2, f⟩ y ⟨hr, hc⟩ hm hy).1]
          simp [hy]
    · rw [if_neg hf, if_neg hf]; rfl
  · refine (List.nodup_finRange 4).filterMap ?_
    intro f f' b hb hb'
    simp only [Option.mem_def] at hb hb'
    split at hb <;> [skip; simp at hb]
    split at hb' <;> [skip; simp at hb']
    obtain ⟨y, hm, hy⟩ := Option.bind_eq_some_iff.1 hb
    obtain ⟨y', hm', hy'⟩ := Option.bind_eq_some_iff.1 hb'
    split at hy <;> [skip; simp at hy]
    split at hy' <;> [skip; simp at hy']
    rename_i hr1 hr2
    have hyy : y = y' := by
      rw [← hy', Option.some.injEq] at hy
      injection hy with _ h2
      injection h2 with h2 h3
      cases y; cases y'
      simp only at hr1 hr2 h2 h3
      subst hr1; subst hr2; subst h2; subst h3; rfl
    subst hyy
    have := mate_inj J (x := ⟨r, t.2, f⟩) (x' := ⟨r, t.2, f'⟩) ⟨hr, hc⟩ ⟨hr, hc⟩ hm hm'
    injection this
  · intro x
    simp only [List.mem_filterMap, List.mem_finRange, true_and]
    constructor
    · rintro ⟨f, hf⟩
      split at hf <;> [skip; simp at hf]
      rename_i hfree
      obtain ⟨y, hm, hy⟩ := Option.bind_eq_some_iff.1 hf
      split at hy <;> [skip; simp at hy]
      rename_i hyr
      injection hy with hy
      subst hy
      refine ⟨rfl, f, ?_, hfree⟩
      rw [hm]
      cases y
      simp only at hyr
      subst hyr; rfl
    · rintro ⟨h1, f, hm, hfree⟩
      refine ⟨f, ?_⟩
      rw [if_pos hfree, hm]
      simp only [Option.bind_some, if_true]
      obtain ⟨x1, x2, x3⟩ := x
      simp only at h1
      subst h1; rfl

/-- What a call of `partialTopoSort` does, as a list of pairs. -/
structure Sorted (G : Graph) (mate : Loc → Option Loc) (r : Nat) (Dprev : Nat → List (Nat × Nat))
    (D : List (Nat × Nat)) (w' : Todo) (E : List (Nat × Nat)) : Prop where
  inv : RankInv G r w' (D ++ E) (Got mate r Dprev (D ++ E))
  order : ∀ l1 t l2, E = l1 ++ t :: l2 → ∀ f, G.wait r t.1 t.2 f = true →
    Got mate r Dprev (D ++ l1) t.1 t.2 f

theorem TopoSort.sorted (J : Joined G mate) {r : Nat} (hr : r < G.nRanks) {prio : Nat → Nat → Nat}
    {Dprev : Nat → List (Nat × Nat)} {w w' : Todo} {done done' : List Work}
    (h : TopoSort G r prio w done w' done') : ∀ {D : List (Nat × Nat)},
    RankInv G r w D (Got mate r Dprev D) →
    ∃ E, done' = done ++ E.map G.work ∧ Sorted G mate r Dprev D w' E ∧
      (done.length ≤ G.maxStep → done'.length ≤ G.maxStep) ∧
      (done.length < G.maxStep → w.queue ≠ [] → E ≠ []) := by
  induction h with
  | stop w done hstop =>
    intro D hI
    refine ⟨[], by simp, ⟨by simpa using hI, by simp⟩, id, ?_⟩
    intro h1 h2
    rcases hstop with h3 | h3
    · exact absurd h3 h2
    · omega
  | pop w done l1 t l2 w' done' hq hlt hmax htopo ih =>
    intro D hI
    have htq : t ∈ w.queue ++ D := by rw [hq]; simp
    obtain ⟨ha, hc, -⟩ := (hI.mem t).1 htq
    have htD : t ∉ D := by
      intro hD
      have := hI.nodup
      rw [List.nodup_append] at this
      exact this.2.2 t (by rw [hq]; simp) t hD rfl
    obtain ⟨L, hL, hnd, hmem⟩ := children_locs J hr (t := t) hc
    have hpop := hI.pop hq
    have hcred := hpop.credits L hnd (by
      intro x hx
      obtain ⟨h1, f, hm, hfree⟩ := (hmem x).1 hx
      have hin : G.In ⟨r, x.2.1, x.2.2⟩ := J.mate_in _ _ ⟨hr, hc⟩ hm
      have hback := J.mate_symm _ _ (show G.In ⟨r, t.2, f⟩ from ⟨hr, hc⟩) hm
      refine ⟨h1 ▸ ha, hin.2, ?_, ?_⟩
      · rw [h1, J.sync _ _ _ hin hback ha]; exact hfree
      · rintro ⟨y, hy, hd⟩
        rw [hback] at hy
        injection hy with hy
        subst hy
        simp only [if_true] at hd
        rw [h1] at hd
        exact htD hd)
    rw [← hL] at hcred
    have hI' : RankInv G r ((G.children r t).foldl Todo.credit { w with queue := l1 ++ l2 }) (D ++ [t])
        (Got mate r Dprev (D ++ [t])) := by
      refine hcred.congr fun a c f ha' hc' hw => ?_
      constructor
      · rintro (⟨y, hy, hd⟩ | hx)
        · refine ⟨y, hy, ?_⟩
          split at hd
          · rename_i hyr; rw [if_pos hyr]; simp [hd]
          · rename_i hyr; rw [if_neg hyr]; exact hd
        · obtain ⟨h1, f', hm, -⟩ := (hmem _).1 hx
          simp only at h1 hm
          refine ⟨⟨r, t.2, f'⟩, J.mate_symm _ _ (show G.In ⟨r, t.2, f'⟩ from ⟨hr, hc⟩) hm, ?_⟩
          rw [if_pos rfl, h1]
          simp
      · rintro ⟨y, hy, hd⟩
        by_cases hyr : y.rank = r
        · rw [if_pos hyr, List.mem_append] at hd
          rcases hd with hd | hd
          · exact Or.inl ⟨y, hy, by rw [if_pos hyr]; exact hd⟩
          · right
            simp only [List.mem_singleton] at hd
            rw [hmem]
            subst hd
            refine ⟨rfl, y.face, ?_⟩
            have hin : G.In ⟨r, c, f⟩ := ⟨hr, hc'⟩
            have hym : mate ⟨r, y.cell, y.face⟩ = some ⟨r, c, f⟩ := by
              have := J.mate_symm _ _ hin hy
              rw [← this]
              cases y; simp only at hyr; subst hyr; rfl
            refine ⟨hym, ?_⟩
            have := J.sync _ _ a hin hy ha'
            rw [hyr] at this
            rw [← this]; exact hw
        · rw [if_neg hyr] at hd
          exact Or.inl ⟨y, hy, by rw [if_neg hyr]; exact hd⟩
    obtain ⟨E, hE, hS, hlen, -⟩ := ih hI'
    refine ⟨t :: E, ?_, ⟨?_, ?_⟩, ?_, ?_⟩
    · rw [hE]; simp [Graph.work]
    · have := hS.inv
      rwa [List.append_assoc, List.singleton_append] at this
    · intro m1 u m2 he f hw
      cases m1 with
      | nil =>
        injection he with h1 h2
        subst h1
        rw [List.append_nil]
        exact hI.got_all htq hw
      | cons v m1 =>
        injection he with h1 h2
        subst h1
        have := hS.order m1 u m2 h2 f hw
        rwa [List.append_assoc, List.singleton_append] at this
    · intro _
      refine hlen ?_
      simp only [List.length_append, List.length_singleton]
      omega
    · intro _ _; simp

/-- A sort always ends. -/
theorem TopoSort.exists (G : Graph) (r : Nat) (prio : Nat → Nat → Nat) : ∀ (n : Nat) (w : Todo)
    (done : List Work), G.maxStep ≤ done.length + n → ∃ w' done', TopoSort G r prio w done w' done' := by
  intro n
  induction n with
  | zero => intro w done h; exact ⟨w, done, .stop w done (Or.inr (by omega))⟩
  | succ n ih =>
    intro w done h
    by_cases hq : w.queue = []
    · exact ⟨w, done, .stop w done (Or.inl hq)⟩
    by_cases hl : G.maxStep ≤ done.length
    · exact ⟨w, done, .stop w done (Or.inr hl)⟩
    obtain ⟨t, ht, hmax⟩ : ∃ t ∈ w.queue, ∀ u ∈ w.queue, prio u.1 u.2 ≤ prio t.1 t.2 := by
      have : w.queue.toFinset.Nonempty := by
        obtain ⟨x, hx⟩ := List.exists_mem_of_ne_nil _ hq
        exact ⟨x, List.mem_toFinset.2 hx⟩
      obtain ⟨t, ht, hm⟩ := Finset.exists_max_image _ (fun t : Nat × Nat => prio t.1 t.2) this
      exact ⟨t, List.mem_toFinset.1 ht, fun u hu => hm u (List.mem_toFinset.2 hu)⟩
    obtain ⟨l1, l2, hs⟩ := List.append_of_mem ht
    obtain ⟨w', done', h'⟩ := ih ((G.children r t).foldl Todo.credit { w with queue := l1 ++ l2 })
      (done ++ [⟨t.2, G.angles.getD t.1 0⟩]) (by simp only [List.length_append, List.length_singleton]; omega)
    exact ⟨w', done', .pop w done l1 t l2 w' done' hs (by omega) hmax h'⟩

end Verif.Schedule
