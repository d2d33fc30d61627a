import Verif.Schedule.Seek
import Mathlib.Data.Finset.Lattice.Fold
import Mathlib.Data.Fintype.Basic

/-!
# The second loop of `neighborPriorities`

On one rank it sorts the graph of the faces inside the rank.
-/
set_option linter.unusedSectionVars false
set_option linter.unusedVariables false

namespace Verif.Schedule
open Classical List Verif.Traverse

variable {K : Type} [AddCommGroup K] [LinearOrder K] [IsOrderedAddMonoid K]
  {P : Plan K} {mate : Loc → Option Loc}

/-- The faces inside the ranks only. -/
def Plan.inner (P : Plan K) : Graph where
  nRanks := P.nRanks
  angles := P.angles
  maxStep := P.maxCellsPerStep % 2 ^ 32
  mesh r := { P.mesh r with
    adjRank := fun c f => if ((P.mesh r).adjCell c f).isSome then (P.mesh r).adjRank c f else none }
  wait r a c f := P.hasChild r a c f && ((P.mesh r).adjCell c f).isSome
  free r a c f := P.hasParent r a c f && ((P.mesh r).adjCell c f).isSome

def innerMate (mate : Loc → Option Loc) (x : Loc) : Option Loc :=
  (mate x).filter fun y => y.rank = x.rank

theorem innerMate_some {x y : Loc} : innerMate mate x = some y ↔ mate x = some y ∧ y.rank = x.rank := by
  unfold innerMate
  rw [Option.filter_eq_some_iff]
  simp

section
variable (F : P.Fits mate)
include F

theorem adjCell_isSome {x : Loc} (hx : P.In x) :
    ((P.mesh x.rank).adjCell x.cell x.face).isSome = true ↔ innerMate mate x ≠ none := by
  rw [Option.ne_none_iff_exists']
  cases hm : mate x with
  | none => rw [(F.ext x hx hm).1]; simp [innerMate_some, hm]
  | some y =>
    by_cases hr : y.rank = x.rank
    · rw [(F.near x y hx hm hr).1]
      simp only [Option.isSome_some, true_iff]
      exact ⟨y, innerMate_some.2 ⟨hm, hr⟩⟩
    · rw [(F.far x y hx hm hr).1]
      simp only [Option.isSome_none, Bool.false_eq_true, false_iff, not_exists]
      intro z hz
      rw [innerMate_some, hm] at hz
      obtain ⟨h1, h2⟩ := hz
      injection h1 with h1
      exact hr (h1 ▸ h2)

theorem joined_inner : Joined P.inner (innerMate mate) where
  mate_in x y hx h := F.mate_in x y hx (innerMate_some.1 h).1
  mate_symm x y hx h := by
    obtain ⟨h1, h2⟩ := innerMate_some.1 h
    exact innerMate_some.2 ⟨F.mate_symm x y hx h1, h2.symm⟩
  near x y hx h hr := (F.near x y hx (innerMate_some.1 h).1 hr).1
  far x y hx h hr := absurd (innerMate_some.1 h).2 hr
  ext x hx h := by
    have hx' : P.In x := hx
    have : ((P.mesh x.rank).adjCell x.cell x.face).isSome = false := by
      rw [← Bool.not_eq_true, adjCell_isSome F hx']; simpa using h
    refine ⟨Option.not_isSome_iff_eq_none.1 (by rw [Bool.not_eq_true]; exact this), ?_⟩
    show (if _ then _ else _) = none
    rw [this]; simp
  side_eq x y hx h hr := absurd (innerMate_some.1 h).2 hr
  side_cell x y hx h hr := absurd (innerMate_some.1 h).2 hr
  side_inj x x' y y' hx hx' h h' hr := absurd (innerMate_some.1 h).2 hr
  sync x y a hx h ha := by
    have hx' : P.In x := hx
    obtain ⟨h1, h2⟩ := innerMate_some.1 h
    have hy := F.mate_in x y hx' h1
    have hb := F.mate_symm x y hx' h1
    show (P.hasChild x.rank a x.cell x.face && _) = (P.hasParent y.rank a y.cell y.face && _)
    rw [hasParent_sync F hy hb ha, (F.near x y hx' h1 h2).1, (F.near y x hy hb h2.symm).1]
    rfl
  wait_mate x a hx h := by
    have hx' : P.In x := hx
    have h : (P.hasChild x.rank a x.cell x.face && _) = true := h
    rw [Bool.and_eq_true] at h
    exact (adjCell_isSome F hx').1 h.2
  free_mate x a hx h := by
    have hx' : P.In x := hx
    have h : (P.hasParent x.rank a x.cell x.face && _) = true := h
    rw [Bool.and_eq_true] at h
    exact (adjCell_isSome F hx').1 h.2
  angles := F.angles

end

theorem children_inner (r : Nat) (t : Nat × Nat) : P.backward.children r t = P.inner.children r t := by
  unfold Graph.children
  congr 1
  funext f
  show (if P.hasParent r t.1 t.2 f = true then ((P.mesh r).adjCell t.2 f).map _ else none) =
    if (P.hasParent r t.1 t.2 f && ((P.mesh r).adjCell t.2 f).isSome) = true then
      ((P.mesh r).adjCell t.2 f).map _ else none
  cases (P.mesh r).adjCell t.2 f <;> simp

theorem TopoSort.inner {r : Nat} {prio : Table} {w w' : Todo} {d d' : List Work}
    (h : TopoSort P.backward r prio w d w' d') : TopoSort P.inner r prio w d w' d' := by
  induction h with
  | stop w d h => exact .stop w d h
  | pop w d l1 t l2 w' d' hq hl hm _ ih =>
    rw [children_inner] at ih
    exact .pop w d l1 t l2 w' d' hq hl hm ih

/-! ### The first loop -/

theorem foldl_key {σ ε κ β : Type} [DecidableEq κ] (key : ε → κ) (step : σ → ε → σ) (look : σ → κ → β)
    (upd : β → ε → β) (h : ∀ s e k, look (step s e) k = if key e = k then upd (look s k) e else look s k)
    (k : κ) : ∀ (L : List ε) (s : σ),
      look (L.foldl step s) k = (L.filter fun e => key e = k).foldl upd (look s k) := by
  intro L
  induction L with
  | nil => intro s; rfl
  | cons e L ih =>
    intro s
    rw [List.foldl_cons, ih, h]
    by_cases hk : key e = k
    · rw [if_pos hk, List.filter_cons_of_pos (by simpa using hk), List.foldl_cons]
    · rw [if_neg hk, List.filter_cons_of_neg (by simpa using hk)]

theorem flatMap_single {α β : Type} {a : α} {g : α → List β} : ∀ {l : List α}, l.Nodup → a ∈ l →
    (∀ b ∈ l, b ≠ a → g b = []) → l.flatMap g = g a := by
  intro l
  induction l with
  | nil => simp
  | cons b l ih =>
    intro hnd hm hg
    rw [List.nodup_cons] at hnd
    rw [List.flatMap_cons]
    by_cases hb : b = a
    · subst hb
      have : l.flatMap g = [] := by
        rw [List.flatMap_eq_nil_iff]
        exact fun c hc => hg c (by simp [hc]) (fun h => hnd.1 (h ▸ hc))
      rw [this, List.append_nil]
    · rw [hg b (by simp) hb, List.nil_append]
      refine ih hnd.2 ?_ (fun c hc => hg c (by simp [hc]))
      rcases List.mem_cons.1 hm with h | h
      · exact absurd h.symm hb
      · exact h

theorem triples_filter {r a c : Nat} (ha : a < P.angles.length) (hc : c < (P.mesh r).nCells) :
    ((P.triples r).filter fun e => (e.1, e.2.1) = (a, c)) = (List.finRange 4).map fun f => (a, c, f) := by
  unfold Plan.triples
  rw [List.filter_flatMap, flatMap_single (a := a) List.nodup_range (by simpa using ha)]
  · rw [List.filter_flatMap, flatMap_single (a := c) List.nodup_range (by simpa using hc)]
    · rw [List.filter_eq_self]; simp
    · intro b _ hb
      rw [List.filter_eq_nil_iff]
      rintro ⟨x, y, z⟩ h
      simp only [List.mem_map, Prod.mk.injEq] at h
      obtain ⟨_, _, _, rfl, _⟩ := h
      simp [hb]
  · intro b _ hb
    rw [List.filter_eq_nil_iff]
    rintro ⟨x, y, z⟩ h
    simp only [List.mem_flatMap, List.mem_map, Prod.mk.injEq] at h
    obtain ⟨_, _, _, _, rfl, _, _⟩ := h
    simp [hb]

/-- A face on the boundary of the rank with a child behind it. -/
def Plan.exit (P : Plan K) (r a c : Nat) (f : Face) : Prop :=
  P.hasChild r a c f = true ∧ (P.mesh r).adjCell c f = none

theorem exit_adjRank {r a c : Nat} {f : Face} (h : P.hasChild r a c f = true) :
    (P.mesh r).adjRank c f ≠ none := by
  unfold Plan.hasChild at h
  split at h
  · exact Option.isSome_iff_ne_none.1 h
  · simp at h

theorem raiseTo_apply (p : Table) (a c v a' c' : Nat) : raiseTo p a c v a' c' =
    if a' = a ∧ c' = c then max (p a c) v else p a' c' := by
  simp only [raiseTo, setAt]
  by_cases h1 : a' = a
  · subst h1
    by_cases h2 : c' = c
    · subst h2; simp [setAt]
    · simp [setAt, h2]
  · simp [h1]

/-- What one face does to the entries of its own pair. -/
noncomputable def Plan.seekUpd (P : Plan K) (r : Nat) (side : Table) (k : Seek) (b : Nat × Nat)
    (e : Nat × Nat × Face) : Nat × Nat :=
  if P.exit r e.1 e.2.1 e.2.2 then
    (max b.1 ((side e.1 ((P.mesh r).side e.2.1 e.2.2) * k.scale + k.shift) % 2 ^ 64), dec b.2)
  else b

theorem seekFace_look (r : Nat) (side : Table) (k : Seek) (s : Table × Table) (e : Nat × Nat × Face)
    (ac : Nat × Nat) : ((P.seekFace r side k s e).1 ac.1 ac.2, (P.seekFace r side k s e).2 ac.1 ac.2) =
      if (e.1, e.2.1) = ac then P.seekUpd r side k (s.1 ac.1 ac.2, s.2 ac.1 ac.2) e
      else (s.1 ac.1 ac.2, s.2 ac.1 ac.2) := by
  obtain ⟨a, c⟩ := ac
  obtain ⟨a', c', f⟩ := e
  unfold Plan.seekFace Plan.seekUpd Plan.exit
  by_cases h : P.hasChild r a' c' f = true ∧ (P.mesh r).adjCell c' f = none
  · simp only [h, and_self, if_true, exit_adjRank h.1, ne_eq, not_false_eq_true, raiseTo_apply,
      Prod.mk.injEq]
    by_cases h1 : a' = a
    · subst h1
      by_cases h2 : c' = c
      · subst h2; simp [setAt]
      · simp [setAt, h2, Ne.symm h2]
    · simp [setAt, h1, Ne.symm h1]
  · simp only [if_neg h, ite_self]

theorem foldl_seekUpd (r : Nat) (side : Table) (k : Seek) (a c : Nat) : ∀ (l : List Face) (m n : Nat),
    let b := (l.map fun f => (a, c, f)).foldl (P.seekUpd r side k)
      (m, (l.filter (P.hasChild r a c)).length + n)
    (∀ v, b.1 ≤ v ↔ m ≤ v ∧ ∀ f ∈ l, P.exit r a c f →
      (side a ((P.mesh r).side c f) * k.scale + k.shift) % 2 ^ 64 ≤ v) ∧
    b.2 = (l.filter fun f => P.hasChild r a c f && ((P.mesh r).adjCell c f).isSome).length + n := by
  intro l
  induction l with
  | nil => intro m n; simp
  | cons f l ih =>
    intro m n
    simp only [List.map_cons, List.foldl_cons]
    by_cases hch : P.hasChild r a c f = true
    · rw [List.filter_cons_of_pos hch]
      by_cases hn : (P.mesh r).adjCell c f = none
      · have hex : P.exit r a c f := ⟨hch, hn⟩
        have : P.seekUpd r side k (m, (f :: l.filter (P.hasChild r a c)).length + n) (a, c, f) =
            (max m ((side a ((P.mesh r).side c f) * k.scale + k.shift) % 2 ^ 64),
              (l.filter (P.hasChild r a c)).length + n) := by
          simp only [Plan.seekUpd, if_pos hex, List.length_cons, Traverse.dec]
          rw [if_neg (by omega)]
          congr 1; omega
        rw [this]
        obtain ⟨h1, h2⟩ := ih (max m ((side a ((P.mesh r).side c f) * k.scale + k.shift) % 2 ^ 64)) n
        refine ⟨fun v => ?_, ?_⟩
        · rw [h1 v, max_le_iff]
          constructor
          · rintro ⟨⟨h3, h4⟩, h5⟩
            refine ⟨h3, fun g hg hx => ?_⟩
            rcases List.mem_cons.1 hg with rfl | hg
            · exact h4
            · exact h5 g hg hx
          · rintro ⟨h3, h4⟩
            exact ⟨⟨h3, h4 f (by simp) hex⟩, fun g hg => h4 g (by simp [hg])⟩
        · rw [h2, List.filter_cons_of_neg (by simp [hn])]
      · have hex : ¬ P.exit r a c f := fun h => hn h.2
        have : P.seekUpd r side k (m, (f :: l.filter (P.hasChild r a c)).length + n) (a, c, f) =
            (m, (l.filter (P.hasChild r a c)).length + (n + 1)) := by
          simp only [Plan.seekUpd, if_neg hex, List.length_cons]
          congr 1; omega
        rw [this]
        obtain ⟨h1, h2⟩ := ih m (n + 1)
        refine ⟨fun v => ?_, ?_⟩
        · rw [h1 v]
          refine and_congr_right fun _ => ⟨fun h g hg hx => ?_, fun h g hg => h g (by simp [hg])⟩
          rcases List.mem_cons.1 hg with rfl | hg
          · exact absurd hx hex
          · exact h g hg hx
        · rw [h2, List.filter_cons_of_pos (by
            simp [hch, Option.isSome_iff_ne_none, hn])]
          simp only [List.length_cons]; omega
    · have hex : ¬ P.exit r a c f := fun h => hch h.1
      rw [List.filter_cons_of_neg hch, List.filter_cons_of_neg (by simp [hch])]
      have : P.seekUpd r side k (m, (l.filter (P.hasChild r a c)).length + n) (a, c, f) =
          (m, (l.filter (P.hasChild r a c)).length + n) := by
        simp only [Plan.seekUpd, if_neg hex]
      rw [this]
      obtain ⟨h1, h2⟩ := ih m n
      refine ⟨fun v => ?_, h2⟩
      rw [h1 v]
      refine and_congr_right fun _ => ⟨fun h g hg hx => ?_, fun h g hg => h g (by simp [hg])⟩
      rcases List.mem_cons.1 hg with rfl | hg
      · exact absurd hx hex
      · exact h g hg hx

/-- After the first loop: the priorities of the exits, the counters of the inner graph. -/
theorem seekBound_spec {r a c : Nat} (side : Table) (k : Seek) (ha : a < P.angles.length)
    (hc : c < (P.mesh r).nCells) :
    (∀ v, (P.seekBound r side k).1 a c ≤ v ↔ ∀ f, P.exit r a c f →
      (side a ((P.mesh r).side c f) * k.scale + k.shift) % 2 ^ 64 ≤ v) ∧
    (P.seekBound r side k).2 a c = P.inner.numDependents r a c := by
  have h := foldl_key (fun e : Nat × Nat × Face => (e.1, e.2.1)) (P.seekFace r side k)
    (fun s ac => (s.1 ac.1 ac.2, s.2 ac.1 ac.2)) (P.seekUpd r side k)
    (seekFace_look r side k) (a, c) (P.triples r) (fun _ _ => 0, P.backward.numDependents r)
  rw [triples_filter ha hc] at h
  have h2 := foldl_seekUpd (P := P) r side k a c (List.finRange 4) 0 0
  rw [Nat.add_zero] at h2
  have h3 : ((P.seekBound r side k).1 a c, (P.seekBound r side k).2 a c) = _ := h
  have hn : P.backward.numDependents r a c = ((List.finRange 4).filter (P.hasChild r a c)).length := rfl
  dsimp only at h3
  rw [hn] at h3
  have e1 := congrArg Prod.fst h3
  have e2 := congrArg Prod.snd h3
  dsimp only at e1 e2 h2
  refine ⟨fun v => ?_, ?_⟩
  · rw [e1, h2.1 v]; simp
  · rw [e2, h2.2]; rfl

/-! ### The second loop -/

/-- What a pair gets through a face when the pairs `D` are done. -/
noncomputable def Plan.seekVal (P : Plan K) (r : Nat) (side : Table) (k : Seek) (D : List (Nat × Nat))
    (p : Table) (a c : Nat) (f : Face) : Nat :=
  if P.hasChild r a c f = true then
    match (P.mesh r).adjCell c f with
    | none => (side a ((P.mesh r).side c f) * k.scale + k.shift) % 2 ^ 64
    | some n => if (a, n) ∈ D then (p a n + k.parent) % 2 ^ 64 else 0
  else 0

/-- The loop so far: `D` are the pairs done. -/
structure SeekInv (P : Plan K) (mate : Loc → Option Loc) (r : Nat) (side : Table) (k : Seek)
    (s : Seeker) (D : List (Nat × Nat)) : Prop where
  rank : RankInv P.inner r s.todo D (Got (innerMate mate) r (fun _ => []) D)
  order : ∀ l1 t l2, D = l1 ++ t :: l2 → ∀ f, P.inner.wait r t.1 t.2 f = true →
    Got (innerMate mate) r (fun _ => []) l1 t.1 t.2 f
  count : s.solved = D.length % 2 ^ 64
  prio : ∀ a c, a < P.angles.length → c < (P.mesh r).nCells → ∀ v,
    s.prio a c ≤ v ↔ ∀ f, P.seekVal r side k D s.prio a c f ≤ v

theorem SeekInv.init {r : Nat} (side : Table) (k : Seek) : SeekInv P mate r side k
    ⟨P.seekTodo r (P.seekBound r side k).2, (P.seekBound r side k).1, 0⟩ [] := by
  have hneed : ∀ {a c}, a < P.angles.length → c < (P.mesh r).nCells →
      (P.seekBound r side k).2 a c = P.inner.numDependents r a c :=
    fun ha hc => (seekBound_spec side k ha hc).2
  have hS := RankInv.start P.inner r
  have hq : (P.seekTodo r (P.seekBound r side k).2).queue = (P.inner.start r).queue := by
    unfold Plan.seekTodo Graph.start
    dsimp only
    refine List.flatMap_congr fun a ha => ?_
    congr 1
    refine List.filter_congr fun c hc => ?_
    rw [hneed (List.mem_range.1 ha) (List.mem_range.1 hc)]
  refine ⟨?_, by simp, rfl, ?_⟩
  · have h1 : RankInv P.inner r (P.seekTodo r (P.seekBound r side k).2) [] (fun _ _ _ => False) := by
      refine ⟨fun a c ha hc => ?_, by rw [hq]; exact hS.nodup, fun t => ?_⟩
      · rw [← hS.need a c ha hc]; exact hneed ha hc
      · rw [hq, hS.mem t]
        refine and_congr_right fun ha => and_congr_right fun hc => ?_
        show P.inner.numDependents r t.1 t.2 = 0 ↔ (P.seekBound r side k).2 t.1 t.2 = 0
        rw [hneed ha hc]
    refine h1.congr fun a c f _ _ _ => ?_
    constructor
    · exact False.elim
    · rintro ⟨y, -, h⟩
      split at h <;> simp at h
  · intro a c ha hc v
    rw [(seekBound_spec side k ha hc).1 v]
    refine forall_congr' fun f => ?_
    unfold Plan.seekVal Plan.exit
    by_cases h1 : P.hasChild r a c f = true
    · cases h2 : (P.mesh r).adjCell c f with
      | none => simp [h1]
      | some n => simp
    · simp [h1]

section
variable (F : P.Fits mate)
include F

/-- The faces of `t` along which its value is passed up, seen from the other side. -/
theorem passUp_link {r a tc c : Nat} (hr : r < P.nRanks) (ha : a < P.angles.length)
    (htc : tc < (P.mesh r).nCells) (hc : c < (P.mesh r).nCells) :
    (∃ f, P.hasParent r a tc f = true ∧ (P.mesh r).adjCell tc f = some c) ↔
    ∃ f, P.hasChild r a c f = true ∧ (P.mesh r).adjCell c f = some tc := by
  have key : ∀ {c f n}, c < (P.mesh r).nCells → (P.mesh r).adjCell c f = some n →
      ∃ g, mate ⟨r, c, f⟩ = some ⟨r, n, g⟩ := by
    intro c f n hc h
    have := (adjCell_isSome F (x := ⟨r, c, f⟩) ⟨hr, hc⟩).1 (by simp only; rw [h]; rfl)
    obtain ⟨y, hy⟩ := Option.ne_none_iff_exists'.1 this
    obtain ⟨h1, h2⟩ := innerMate_some.1 hy
    have h3 := (F.near ⟨r, c, f⟩ y ⟨hr, hc⟩ h1 h2).1
    simp only at h3 h2
    rw [h] at h3
    injection h3 with h3
    refine ⟨y.face, ?_⟩
    rw [h1, ← h2, h3]
  constructor
  · rintro ⟨f, h1, h2⟩
    obtain ⟨g, hm⟩ := key htc h2
    have hin : P.In ⟨r, tc, f⟩ := ⟨hr, htc⟩
    have hb := F.mate_symm _ _ hin hm
    refine ⟨g, ?_, (F.near _ _ ⟨hr, hc⟩ hb rfl).1⟩
    rw [hasParent_sync F (x := ⟨r, tc, f⟩) hin hm ha] at h1
    exact h1
  · rintro ⟨f, h1, h2⟩
    obtain ⟨g, hm⟩ := key hc h2
    have hin : P.In ⟨r, c, f⟩ := ⟨hr, hc⟩
    have hb := F.mate_symm _ _ hin hm
    refine ⟨g, ?_, (F.near _ _ ⟨hr, htc⟩ hb rfl).1⟩
    rw [hasParent_sync F (x := ⟨r, tc, g⟩) ⟨hr, htc⟩ hb ha]
    exact h1

end

theorem passUp_fold {r : Nat} (k : Seek) (t : Nat × Nat) : ∀ (l : List Face) (p : Table),
    (∀ f ∈ l, P.hasParent r t.1 t.2 f = true → (P.mesh r).adjCell t.2 f ≠ some t.2) →
    ∀ a c v, l.foldl (P.passUp r k t) p a c ≤ v ↔ p a c ≤ v ∧ ∀ f ∈ l, P.hasParent r t.1 t.2 f = true →
      (P.mesh r).adjCell t.2 f = some c → a = t.1 → (p t.1 t.2 + k.parent) % 2 ^ 64 ≤ v := by
  intro l
  induction l with
  | nil => intro p _ a c v; simp
  | cons f l ih =>
    intro p hself a c v
    rw [List.foldl_cons, ih _ (fun g hg => hself g (by simp [hg]))]
    unfold Plan.passUp
    by_cases h1 : P.hasParent r t.1 t.2 f = true
    · rw [if_pos h1]
      cases h2 : (P.mesh r).adjCell t.2 f with
      | none =>
        refine and_congr_right fun _ => ⟨fun h g hg h3 h4 h5 => ?_, fun h g hg => h g (by simp [hg])⟩
        rcases List.mem_cons.1 hg with rfl | hg
        · rw [h2] at h4; simp at h4
        · exact h g hg h3 h4 h5
      | some n =>
        have hne : t.2 ≠ n := fun h => hself f (by simp) h1 (by rw [h2, ← h])
        simp only [raiseTo_apply, hne, and_false, if_false]
        constructor
        · rintro ⟨h3, h4⟩
          refine ⟨?_, fun g hg h5 h6 h7 => ?_⟩
          · split at h3
            · rename_i h; rw [h.1, h.2]; exact (le_max_left _ _).trans h3
            · exact h3
          · rcases List.mem_cons.1 hg with rfl | hg
            · rw [h2] at h6
              injection h6 with h6
              rw [if_pos ⟨h7, h6.symm⟩] at h3
              exact (le_max_right _ _).trans h3
            · exact h4 g hg h5 h6 h7
        · rintro ⟨h3, h4⟩
          refine ⟨?_, fun g hg => h4 g (by simp [hg])⟩
          split
          · rename_i h
            rw [max_le_iff, ← h.1, ← h.2]
            refine ⟨h3, ?_⟩
            rw [h.1]
            exact h4 f (by simp) h1 (by rw [h2, h.2]) h.1
          · exact h3
    · rw [if_neg h1]
      refine and_congr_right fun _ => ⟨fun h g hg h3 h4 h5 => ?_, fun h g hg => h g (by simp [hg])⟩
      rcases List.mem_cons.1 hg with rfl | hg
      · exact absurd h3 h1
      · exact h g hg h3 h4 h5

section
variable (F : P.Fits mate)
include F

/-- One pair of `updatePriorities`. -/
theorem passUp_spec {r : Nat} (hr : r < P.nRanks) {side : Table} {k : Seek} {p : Table}
    {D : List (Nat × Nat)} {t : Nat × Nat} (ht : t.1 < P.angles.length) (htc : t.2 < (P.mesh r).nCells)
    (hD : ∀ u ∈ D, u.2 < (P.mesh r).nCells)
    (htD : t ∉ D) (hdone : ∀ u ∈ D ++ [t], ∀ f n, P.hasChild r u.1 u.2 f = true →
      (P.mesh r).adjCell u.2 f = some n → (u.1, n) ∈ D)
    (hp : ∀ a c, a < P.angles.length → c < (P.mesh r).nCells → ∀ v,
      p a c ≤ v ↔ ∀ f, P.seekVal r side k D p a c f ≤ v) :
    ∀ a c, a < P.angles.length → c < (P.mesh r).nCells → ∀ v,
      (List.finRange 4).foldl (P.passUp r k t) p a c ≤ v ↔
        ∀ f, P.seekVal r side k (D ++ [t]) ((List.finRange 4).foldl (P.passUp r k t) p) a c f ≤ v := by
  -- no pair done has `t` as a child
  have hno : ∀ u ∈ D ++ [t], u.1 = t.1 → u.2 < (P.mesh r).nCells →
      ∀ f, P.hasParent r t.1 t.2 f = true → (P.mesh r).adjCell t.2 f ≠ some u.2 := by
    intro u hu hu1 hu2 f h1 h2
    obtain ⟨g, h3, h4⟩ := (passUp_link F hr ht htc hu2).1 ⟨f, h1, h2⟩
    have := hdone u hu g t.2 (by rw [hu1]; exact h3) h4
    rw [hu1] at this
    exact htD this
  have hfold := passUp_fold (P := P) (r := r) k t (List.finRange 4) p
    (fun f _ h1 => hno t (by simp) rfl htc f h1)
  have hsame : ∀ u ∈ D ++ [t],
      (List.finRange 4).foldl (P.passUp r k t) p u.1 u.2 = p u.1 u.2 := by
    intro u hu
    have hu2 : u.2 < (P.mesh r).nCells := by
      rcases List.mem_append.1 hu with h | h
      · exact hD u h
      · rw [List.mem_singleton.1 h]; exact htc
    refine eq_of_forall_ge_iff fun v => ?_
    rw [hfold]
    refine and_iff_left_of_imp fun _ f _ h1 h2 h3 => ?_
    exact absurd h2 (hno u hu h3 hu2 f h1)
  intro a c ha hc v
  rw [hfold a c v, hp a c ha hc v]
  -- split the values through the faces
  have hval : ∀ f, P.seekVal r side k (D ++ [t]) ((List.finRange 4).foldl (P.passUp r k t) p) a c f ≤ v ↔
      P.seekVal r side k D p a c f ≤ v ∧ (P.hasChild r a c f = true →
        (P.mesh r).adjCell c f = some t.2 → a = t.1 → (p t.1 t.2 + k.parent) % 2 ^ 64 ≤ v) := by
    intro f
    unfold Plan.seekVal
    by_cases h1 : P.hasChild r a c f = true
    · rw [if_pos h1, if_pos h1]
      cases h2 : (P.mesh r).adjCell c f with
      | none => simp
      | some n =>
        dsimp only
        by_cases hn : (a, n) = t
        · have hn1 : a = t.1 := by rw [← hn]
          have hn2 : n = t.2 := by rw [← hn]
          rw [if_pos (by rw [hn]; simp), if_neg (by rw [hn]; exact htD)]
          have := hsame t (by simp)
          rw [hn1, hn2, this]
          simp only [Nat.zero_le, true_and, forall_const]
          rw [← hn1]
          simp [h1]
        · by_cases hD' : (a, n) ∈ D
          · rw [if_pos (by simp [hD']), if_pos hD']
            have := hsame (a, n) (by simp [hD'])
            simp only at this
            rw [this]
            refine (and_iff_left_of_imp fun _ _ h3 h4 => ?_).symm
            injection h3 with h3
            exact absurd (Prod.ext h4 h3) hn
          · rw [if_neg (by simp [hD', hn]), if_neg hD']
            refine (and_iff_left_of_imp fun _ _ h3 h4 => ?_).symm
            injection h3 with h3
            exact absurd (Prod.ext h4 h3) hn
    · simp [h1]
  simp only [hval, forall_and]
  refine and_congr_right fun _ => ?_
  constructor
  · intro h f h1 h2 h3
    subst h3
    obtain ⟨g, h4, h5⟩ := (passUp_link F hr ht htc hc).2 ⟨f, h1, h2⟩
    exact h g (List.mem_finRange g) h4 h5 rfl
  · intro h f _ h1 h2 h3
    subst h3
    obtain ⟨g, h4, h5⟩ := (passUp_link F hr ht htc hc).1 ⟨f, h1, h2⟩
    exact h g h4 h5 rfl

end

end Verif.Schedule
