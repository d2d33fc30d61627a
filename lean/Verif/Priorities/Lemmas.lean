import Verif.Priorities.Model
import Verif.Traverse.Props
import Mathlib.Order.Bounds.Basic

/-!
# Traversals without communication: the final values satisfy the update rule
-/
set_option linter.unusedSectionVars false

namespace Verif.Traverse
open Classical List

variable {D B : Type}

/-- What the update of a cell computes from the values of the local upwind cells (upwind of the
traversal). `inv` holds of the data object of a rank throughout. -/
structure Rule (cfg : Cfg D B) (V : Type) where
  obs : D → Nat → Nat → V
  inv : Nat → D → Prop
  rule : Nat → Nat → Nat → (Nat → V) → V
  init_inv : ∀ r, inv r (cfg.init r)
  upd_inv : ∀ r c a d, inv r d →
    inv r ((cfg.data r).update c a (adjCellsSides (cfg.mesh r) c) (bdryType (cfg.mesh r) a c) d)
  upd_self : ∀ r c a d, inv r d →
    (∀ f n, cfg.inDir r a c f = true → (cfg.mesh r).adjCell c f = some n → n ≠ c) →
    obs ((cfg.data r).update c a (adjCellsSides (cfg.mesh r) c) (bdryType (cfg.mesh r) a c) d) c a =
      rule r c a fun n => obs d n a
  upd_obs : ∀ r c a d c' a', (c' ≠ c ∨ a' ≠ a) →
    obs ((cfg.data r).update c a (adjCellsSides (cfg.mesh r) c) (bdryType (cfg.mesh r) a c) d) c' a' =
      obs d c' a'
  rule_congr : ∀ r c a v v',
    (∀ f n, cfg.inDir r a c f = true → (cfg.mesh r).adjCell c f = some n → v n = v' n) →
    rule r c a v = rule r c a v'

section
variable {cfg : Cfg D B} {mate : Loc → Option Loc} (L : Linked cfg mate) (hd : cfg.doComm = false)
include L hd

/-- Without communication no side is ever set. -/
theorem nocomm_events {log : List (Event B)} (h : Ordered cfg mate log) {e : Event B} (he : e ∈ log) :
    ∃ r c a k, e = .upd r c a k := by
  obtain ⟨l1, l2, heq⟩ := List.append_of_mem he
  have := h l1 e l2 heq
  cases e with
  | upd r c a k => exact ⟨r, c, a, k, rfl⟩
  | side r s a b =>
    obtain ⟨x, y, hxr, -, hy, hne, -, -, hn, -⟩ := this
    obtain ⟨-, y', hy', h1 | h1⟩ := hn
    · rw [hd] at h1; simp at h1
    · rw [hy] at hy'
      injection hy' with hy'
      subst hy'
      rw [hxr] at h1
      exact absurd h1 hne

variable {V : Type} (F : Rule cfg V)

theorem Rule.replay_inv {log : List (Event B)} (h : Ordered cfg mate log) (r : Nat) :
    F.inv r (replay cfg r log) := by
  induction log using List.reverseRecOn with
  | nil => exact F.init_inv r
  | append_singleton log e ih =>
    have ih := ih (ordered_prefix h)
    obtain ⟨r', c, a, k, rfl⟩ := nocomm_events L hd h (e := e) (by simp)
    rw [replay_snoc]
    simp only [applyEvent]
    split
    · exact F.upd_inv _ _ _ _ ih
    · exact ih

theorem Rule.obs_stays {l1 l2 : List (Event B)} (h : Ordered cfg mate (l1 ++ l2)) {r c a : Nat}
    (hdn : Done l1 r c a) : F.obs (replay cfg r (l1 ++ l2)) c a = F.obs (replay cfg r l1) c a := by
  induction l2 using List.reverseRecOn with
  | nil => simp
  | append_singleton l2 e ih =>
    rw [← List.append_assoc] at h ⊢
    have ih := ih (ordered_prefix h)
    obtain ⟨r', c', a', k, rfl⟩ := nocomm_events L hd h (e := e) (by simp)
    have he := h (l1 ++ l2) _ [] rfl
    rw [replay_snoc, ← ih]
    simp only [applyEvent]
    split
    · rename_i hh
      subst hh
      apply F.upd_obs
      by_contra hno
      push Not at hno
      obtain ⟨rfl, rfl⟩ := hno
      exact he.2.2.2.1 (done_append.2 (Or.inl hdn))
    · rfl

/-- The final values satisfy the rule. -/
theorem Rule.solves {log : List (Event B)} (h : Ordered cfg mate log) {r c a : Nat}
    (hdn : Done log r c a) :
    F.obs (replay cfg r log) c a = F.rule r c a fun n => F.obs (replay cfg r log) n a := by
  obtain ⟨k, hk⟩ := hdn
  obtain ⟨l1, l2, heq⟩ := List.append_of_mem hk
  obtain ⟨hr, hcc, ha, hnd, hup⟩ := h l1 _ l2 heq
  have hlog : Ordered cfg mate (l1 ++ [Event.upd r c a k] ++ l2) := by
    rw [List.append_assoc, List.singleton_append, ← heq]; exact h
  have hlog1 : Ordered cfg mate (l1 ++ (Event.upd r c a k :: l2)) := by rw [← heq]; exact h
  have h1 : F.obs (replay cfg r log) c a = F.obs (replay cfg r (l1 ++ [Event.upd r c a k])) c a := by
    have := F.obs_stays L hd hlog (r := r) (c := c) (a := a) ⟨k, by simp⟩
    rw [← this, heq]
    simp
  have hup' : ∀ f n, cfg.inDir r a c f = true → (cfg.mesh r).adjCell c f = some n → Done l1 r n a := by
    intro f n hf hn
    obtain ⟨y, hy, hyr, hyc⟩ := adjCell_some (x := ⟨r, c, f⟩) L ⟨hr, hcc⟩ hn
    have hdn := (hup f y hy ⟨hf, y, hy, Or.inr hyr⟩).1
    rwa [hyr, hyc] at hdn
  rw [h1, replay_snoc]
  simp only [applyEvent, if_true]
  rw [F.upd_self r c a _ (F.replay_inv L hd (ordered_prefix hlog1) r)]
  · apply F.rule_congr
    intro f n hf hn
    rw [heq, F.obs_stays L hd hlog1 (hup' f n hf hn)]
  · intro f n hf hn hnc
    subst hnc
    exact hnd (hup' f n hf hn)

/-- The order of computation ranks the cells of each angle. -/
theorem exists_rank {log : List (Event B)} (h : Ordered cfg mate log) (hc : Complete cfg log) {r a : Nat}
    (hr : r < cfg.nRanks) (ha : a < cfg.nAngles) :
    ∃ rk : Nat → Nat, ∀ c < (cfg.mesh r).nCells, rk c < (cfg.mesh r).nCells ∧
      ∀ f n, cfg.inDir r a c f = true → (cfg.mesh r).adjCell c f = some n →
        n < (cfg.mesh r).nCells ∧ rk n < rk c := by
  let cells : List (Event B) → List Nat := fun l =>
    ((tasksOf l r).filter fun t => t.2 = a).map Prod.fst
  have hmem : ∀ l c, c ∈ cells l ↔ Done l r c a := by
    intro l c
    simp only [cells, List.mem_map, List.mem_filter, decide_eq_true_eq]
    constructor
    · rintro ⟨⟨c', a'⟩, ⟨h1, h2⟩, h3⟩
      simp only at h2 h3
      subst h2 h3
      exact mem_tasksOf.1 h1
    · intro h1
      exact ⟨(c, a), ⟨mem_tasksOf.2 h1, rfl⟩, rfl⟩
  have happ : ∀ l l', cells (l ++ l') = cells l ++ cells l' := by
    intro l l'
    simp [cells, tasksOf, List.filterMap_append]
  have hnd : (cells log).Nodup := by
    apply List.Nodup.map_on _ ((nodup_tasksOf h r).filter _)
    rintro ⟨x1, x2⟩ hx ⟨y1, y2⟩ hy hxy
    simp only [List.mem_filter, decide_eq_true_eq] at hx hy hxy
    rw [hx.2, hy.2, hxy]
  have hlt : ∀ c ∈ cells log, c < (cfg.mesh r).nCells := fun c hcc =>
    (ordered_append_mem h ((hmem _ _).1 hcc)).2.1
  have hlen : (cells log).length ≤ (cfg.mesh r).nCells := by
    have := (List.subperm_of_subset hnd (l₂ := List.range (cfg.mesh r).nCells)
      (fun c hcc => List.mem_range.2 (hlt c hcc))).length_le
    simpa using this
  refine ⟨fun c => (cells log).idxOf c, fun c hcc => ?_⟩
  have hdn := hc r c a hr hcc ha
  refine ⟨lt_of_lt_of_le (List.idxOf_lt_length_iff.2 ((hmem _ _).2 hdn)) hlen, fun f n hf hn => ?_⟩
  obtain ⟨k, hk⟩ := hdn
  obtain ⟨l1, l2, heq⟩ := List.append_of_mem hk
  obtain ⟨-, -, -, hndn, hup⟩ := h l1 _ l2 heq
  obtain ⟨y, hy, hyr, hyc⟩ := adjCell_some (x := ⟨r, c, f⟩) L ⟨hr, hcc⟩ hn
  have hd1 := (hup f y hy ⟨hf, y, hy, Or.inr hyr⟩).1
  rw [hyr, hyc] at hd1
  have hyin := L.mate_in _ y ⟨hr, hcc⟩ hy
  refine ⟨by have := hyin.2; rwa [hyr, hyc] at this, ?_⟩
  show (cells log).idxOf n < (cells log).idxOf c
  rw [heq, happ]
  rw [List.idxOf_append_of_mem ((hmem _ _).2 hd1), List.idxOf_append_of_notMem
    (fun h' => hndn ((hmem _ _).1 h'))]
  have := List.idxOf_lt_length_iff.2 ((hmem l1 n).2 hd1)
  omega

end

end Verif.Traverse
