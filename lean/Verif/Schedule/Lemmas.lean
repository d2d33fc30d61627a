import Verif.Schedule.Spec
import Verif.Traverse.Lemmas
import Mathlib.Data.Finset.Card
import Mathlib.Data.List.Perm.Basic
import Mathlib.Data.Fintype.Card

set_option linter.unusedSectionVars false

namespace Verif.Schedule
open Classical List Verif.Traverse

variable {G : Graph} {mate : Loc → Option Loc}

/-- The faces of a pair still waited for. -/
noncomputable def open' (G : Graph) (r : Nat) (got : Nat → Nat → Face → Prop) (a c : Nat) : Finset Face :=
  Finset.univ.filter fun f => G.wait r a c f = true ∧ ¬ got a c f

/-- Counters and queue of a rank agree with what has been credited (`got`) and done (`D`). -/
structure RankInv (G : Graph) (r : Nat) (w : Todo) (D : List (Nat × Nat))
    (got : Nat → Nat → Face → Prop) : Prop where
  need : ∀ a c, a < G.angles.length → c < (G.mesh r).nCells → w.need a c = (open' G r got a c).card
  nodup : (w.queue ++ D).Nodup
  mem : ∀ t : Nat × Nat, t ∈ w.queue ++ D ↔
    t.1 < G.angles.length ∧ t.2 < (G.mesh r).nCells ∧ w.need t.1 t.2 = 0

theorem RankInv.congr {r : Nat} {w : Todo} {D : List (Nat × Nat)} {got got' : Nat → Nat → Face → Prop}
    (h : RankInv G r w D got) (hg : ∀ a c f, a < G.angles.length → c < (G.mesh r).nCells →
      G.wait r a c f = true → (got a c f ↔ got' a c f)) : RankInv G r w D got' := by
  refine ⟨fun a c ha hc => ?_, h.nodup, h.mem⟩
  rw [h.need a c ha hc]
  congr 1
  ext f
  simp only [open', Finset.mem_filter, Finset.mem_univ, true_and]
  constructor
  · rintro ⟨h1, h2⟩; exact ⟨h1, fun h3 => h2 ((hg a c f ha hc h1).2 h3)⟩
  · rintro ⟨h1, h2⟩; exact ⟨h1, fun h3 => h2 ((hg a c f ha hc h1).1 h3)⟩

theorem credit_need (w : Todo) (t : Nat × Nat) (a c : Nat) :
    (w.credit t).need a c = if (a, c) = t then dec (w.need a c) else w.need a c := by
  obtain ⟨a', c'⟩ := t
  simp only [Todo.credit, setAt]
  by_cases h1 : a = a'
  · subst h1
    by_cases h2 : c = c'
    · subst h2; simp [setAt]
    · simp [setAt, h2]
  · simp [h1]

theorem RankInv.credit {r : Nat} {w : Todo} {D : List (Nat × Nat)} {got : Nat → Nat → Face → Prop}
    (h : RankInv G r w D got) {a c : Nat} {f : Face} (ha : a < G.angles.length)
    (hc : c < (G.mesh r).nCells) (hw : G.wait r a c f = true) (hg : ¬ got a c f) :
    RankInv G r (w.credit (a, c)) D
      (fun a' c' f' => got a' c' f' ∨ (a', c', f') = (a, c, f)) := by
  have hmem : f ∈ open' G r got a c := by simp [open', hw, hg]
  have hpos : 0 < w.need a c := by
    rw [h.need a c ha hc]
    exact Finset.card_pos.2 ⟨f, hmem⟩
  have hneed : ∀ a' c', a' < G.angles.length → c' < (G.mesh r).nCells → (w.credit (a, c)).need a' c' =
      (open' G r (fun a' c' f' => got a' c' f' ∨ (a', c', f') = (a, c, f)) a' c').card := by
    intro a' c' ha' hc'
    rw [credit_need]
    split
    · rename_i heq
      injection heq with h1 h2
      subst h1; subst h2
      rw [dec_pos hpos, h.need a' c' ha' hc', ← Finset.card_erase_of_mem hmem]
      congr 1
      ext f'
      simp only [open', Finset.mem_erase, Finset.mem_filter, Finset.mem_univ, true_and, not_or,
        Prod.mk.injEq]
      tauto
    · rename_i hne
      rw [h.need a' c' ha' hc']
      congr 1
      ext f'
      simp only [open', Finset.mem_filter, Finset.mem_univ, true_and, not_or]
      constructor
      · rintro ⟨h1, h2⟩
        refine ⟨h1, h2, fun h3 => hne ?_⟩
        injection h3 with h4 h5
        injection h5 with h5 h6
        rw [h4, h5]
      · rintro ⟨h1, h2, -⟩; exact ⟨h1, h2⟩
  have hnot : (a, c) ∉ w.queue ++ D := by
    rw [h.mem]
    rintro ⟨-, -, h0⟩
    simp only at h0
    omega
  refine ⟨hneed, ?_, ?_⟩
  · simp only [Todo.credit]
    split
    · rw [List.append_assoc, List.singleton_append]
      exact List.nodup_middle.2 (List.nodup_cons.2 ⟨hnot, h.nodup⟩)
    · exact h.nodup
  · intro t
    rw [credit_need]
    simp only [Todo.credit]
    by_cases ht : t = (a, c)
    · subst ht
      simp only [if_true]
      constructor
      · intro hm
        refine ⟨ha, hc, ?_⟩
        by_contra h0
        rw [if_neg h0] at hm
        exact hnot hm
      · rintro ⟨-, -, h0⟩
        rw [if_pos h0]
        simp
    · have : (t.1, t.2) ≠ (a, c) := ht
      rw [if_neg this, ← h.mem t]
      split <;> simp [ht]

/-- Crediting a list of faces, each waited for, once. -/
theorem RankInv.credits {r : Nat} {D : List (Nat × Nat)} (L : List (Nat × Nat × Face)) :
    ∀ {w : Todo} {got : Nat → Nat → Face → Prop}, RankInv G r w D got → L.Nodup →
    (∀ x ∈ L, x.1 < G.angles.length ∧ x.2.1 < (G.mesh r).nCells ∧ G.wait r x.1 x.2.1 x.2.2 = true ∧
      ¬ got x.1 x.2.1 x.2.2) →
    RankInv G r ((L.map fun x => (x.1, x.2.1)).foldl Todo.credit w) D
      (fun a c f => got a c f ∨ (a, c, f) ∈ L) := by
  induction L with
  | nil =>
    intro w got h _ _
    exact h.congr (by simp)
  | cons x L ih =>
    intro w got h hnd hx
    obtain ⟨h1, h2, h3, h4⟩ := hx x (by simp)
    have hc := h.credit h1 h2 h3 h4
    have := ih hc (List.nodup_cons.1 hnd).2 (by
      intro y hy
      obtain ⟨k1, k2, k3, k4⟩ := hx y (by simp [hy])
      refine ⟨k1, k2, k3, ?_⟩
      rintro (h5 | h5)
      · exact k4 h5
      · have : y = x := h5
        exact (List.nodup_cons.1 hnd).1 (this ▸ hy))
    refine this.congr fun a c f _ _ _ => ?_
    simp only [List.mem_cons, or_assoc]

/-- Taking a pair from the queue. -/
theorem RankInv.pop {r : Nat} {w : Todo} {D : List (Nat × Nat)} {got : Nat → Nat → Face → Prop}
    (h : RankInv G r w D got) {l1 l2 : List (Nat × Nat)} {t : Nat × Nat} (hq : w.queue = l1 ++ t :: l2) :
    RankInv G r { w with queue := l1 ++ l2 } (D ++ [t]) got := by
  have hp : (l1 ++ l2) ++ (D ++ [t]) ~ w.queue ++ D := by
    rw [hq]
    calc (l1 ++ l2) ++ (D ++ [t]) = ((l1 ++ l2) ++ D) ++ [t] := by simp
      _ ~ [t] ++ ((l1 ++ l2) ++ D) := List.perm_append_comm
      _ = (t :: (l1 ++ l2)) ++ D := by simp
      _ ~ (l1 ++ t :: l2) ++ D := (List.perm_middle.symm).append_right D
  refine ⟨h.need, (hp.nodup_iff).2 h.nodup, fun u => ?_⟩
  rw [hp.mem_iff, h.mem]

/-- Nothing is waited for by a pair in the queue or done. -/
theorem RankInv.got_all {r : Nat} {w : Todo} {D : List (Nat × Nat)} {got : Nat → Nat → Face → Prop}
    (h : RankInv G r w D got) {t : Nat × Nat} (ht : t ∈ w.queue ++ D) {f : Face}
    (hw : G.wait r t.1 t.2 f = true) : got t.1 t.2 f := by
  obtain ⟨h1, h2, h3⟩ := (h.mem t).1 ht
  rw [h.need _ _ h1 h2, Finset.card_eq_zero] at h3
  by_contra hg
  have : f ∈ open' G r got t.1 t.2 := by simp [open', hw, hg]
  rw [h3] at this
  simp at this

/-- A pair all of whose waits are over is in the queue or done. -/
theorem RankInv.mem_of_got {r : Nat} {w : Todo} {D : List (Nat × Nat)} {got : Nat → Nat → Face → Prop}
    (h : RankInv G r w D got) {a c : Nat} (ha : a < G.angles.length) (hc : c < (G.mesh r).nCells)
    (hg : ∀ f, G.wait r a c f = true → got a c f) : (a, c) ∈ w.queue ++ D := by
  rw [h.mem]
  refine ⟨ha, hc, ?_⟩
  rw [h.need _ _ ha hc, Finset.card_eq_zero]
  ext f
  simp only [open', Finset.mem_filter, Finset.mem_univ, true_and, Finset.notMem_empty, iff_false,
    not_and, not_not]
  exact hg f

theorem RankInv.start (G : Graph) (r : Nat) : RankInv G r (G.start r) [] (fun _ _ _ => False) := by
  refine ⟨fun a c _ _ => ?_, ?_, fun t => ?_⟩
  · simp only [Graph.start, Graph.numDependents, open', not_false_eq_true, and_true]
    rw [← List.toFinset_card_of_nodup ((List.nodup_finRange 4).filter _)]
    congr 1
    ext f
    simp
  · simp only [List.append_nil, Graph.start]
    rw [List.nodup_flatMap]
    refine ⟨fun a _ => ?_, ?_⟩
    · exact ((List.nodup_range).filter _).map (fun c c' h => by simpa using h)
    · refine List.Pairwise.imp_of_mem ?_ (List.nodup_range (n := G.angles.length))
      intro a b _ _ hab
      simp only [Function.onFun, List.disjoint_left, List.mem_map, not_exists, not_and]
      rintro t ⟨c, -, rfl⟩ c' - h
      injection h with h1 h2
      exact hab h1.symm
  · simp only [List.append_nil, Graph.start, List.mem_flatMap, List.mem_range, List.mem_map,
      List.mem_filter, decide_eq_true_eq]
    constructor
    · rintro ⟨a, ha, c, ⟨hc, h0⟩, rfl⟩; exact ⟨ha, hc, h0⟩
    · rintro ⟨ha, hc, h0⟩; exact ⟨t.1, ha, t.2, ⟨hc, h0⟩, rfl⟩

end Verif.Schedule
