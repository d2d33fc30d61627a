import Verif.Schedule.Plan

/-!
# Levels of the schedule (src/SweepSchedule.cc:242-338, 473-508), C63
-/
set_option linter.unusedSectionVars false
set_option linter.unusedVariables false

namespace Verif.Schedule
open Classical List Verif.Traverse

/-! ### Model -/

/-- `cellLevels(angle, cell)` and `sideLevels(angle, side)` of a rank. -/
structure Levels where
  cell : Nat → Nat → Nat
  side : Nat → Nat → Nat

/-- `cellLevels(angle, cell) = max(cellLevels(angle, cell), v)`. -/
def Levels.raise (l : Levels) (a c v : Nat) : Levels :=
  { l with cell := setAt l.cell a (setAt (l.cell a) c (max (l.cell a c) v)) }

/-- One face in `updateLevels` (src/SweepSchedule.cc:249-258). -/
def Graph.updateFace (G : Graph) (r : Nat) (w : Work) (l : Levels) (f : Face) : Levels :=
  if G.free r (G.glAngle w.angle) w.cell f = true then
    match (G.mesh r).adjCell w.cell f with
    | some n => l.raise (G.glAngle w.angle) n ((l.cell (G.glAngle w.angle) w.cell + 1) % 2 ^ 64)
    | none => l
  else l

/-- `updateLevels` (src/SweepSchedule.cc:242-260). -/
def Graph.updateLevels (G : Graph) (r : Nat) (workDone : List Work) (l : Levels) : Levels :=
  workDone.foldl (fun l w => (List.finRange 4).foldl (G.updateFace r w) l) l

/-- `commSidesAnglesLevels[q]` (src/SweepSchedule.cc:273-292): global side, angle, level. -/
def Graph.levelBox (G : Graph) (r : Nat) (l : Levels) (workDone : List Work) (q : Nat) :
    List (Nat × Nat × Nat) :=
  workDone.flatMap fun w => (List.finRange 4).filterMap fun f =>
    if G.free r (G.glAngle w.angle) w.cell f ∧ (G.mesh r).adjCell w.cell f = none ∧
        (G.mesh r).adjRank w.cell f = some q then
      some ((G.mesh r).lgSide ((G.mesh r).side w.cell f), G.glAngle w.angle,
        l.cell (G.glAngle w.angle) w.cell)
    else none

/-- One entry in `recvLevels` (src/SweepSchedule.cc:321-335). -/
def Graph.recvLevel (G : Graph) (r : Nat) (l : Levels) (e : Nat × Nat × Nat) : Levels :=
  let localSide := (G.mesh r).glSide e.1
  let l' := l.raise e.2.1 ((G.mesh r).sideCell localSide) ((e.2.2 + 1) % 2 ^ 64)
  { l' with side := setAt l'.side e.2.1 (setAt (l'.side e.2.1) localSide e.2.2) }

/-- `recvLevels` (src/SweepSchedule.cc:308-338) with message `box q` from rank `q`. The counters and
the queue are credited as in `recvOrders` (326-330). -/
def Graph.recvLevels (G : Graph) (r : Nat) (box : Nat → List (Nat × Nat × Nat)) (l : Levels) : Levels :=
  (G.neighbors r).foldl (fun l q => (box q).foldl (G.recvLevel r) l) l

/-- The levels after a step in which rank `r` did `d r` (src/SweepSchedule.cc:495-498). -/
def Graph.afterLevels (G : Graph) (lev : Nat → Levels) (d : Nat → List Work) (r : Nat) : Levels :=
  G.recvLevels r (fun q => G.levelBox q (G.updateLevels q (d q) (lev q)) (d q) r)
    (G.updateLevels r (d r) (lev r))

/-- The loop of `calcLevels` (src/SweepSchedule.cc:483-499); all priorities are zero. -/
inductive LevelsReached (G : Graph) : State → (Nat → Levels) → Prop
  | init : LevelsReached G G.init (fun _ => ⟨fun _ _ => 0, fun _ _ => 0⟩)
  | step (s : State) (lev : Nat → Levels) (w : Nat → Todo) (d : Nat → List Work) :
      LevelsReached G s lev → ¬ G.AllDone s →
      (∀ r < G.nRanks, TopoSort G r (fun _ _ => 0) (s.todo r) [] (w r) (d r)) →
      LevelsReached G (G.after s w d) (G.afterLevels lev d)

/-- `calcLevels` ends with the tables `lev`. -/
def CalcLevels (G : Graph) (lev : Nat → Levels) : Prop := ∃ s, LevelsReached G s lev ∧ G.AllDone s

/-- The maximum returned (src/SweepSchedule.cc:501-507). -/
def Graph.nLevels (G : Graph) (lev : Nat → Levels) : Nat :=
  (List.range G.nRanks).foldl (fun m r => (List.range G.angles.length).foldl (fun m a =>
    (List.range (G.mesh r).nCells).foldl (fun m c => max m ((lev r).cell a c)) m) m) 0

/-! ### Raising levels -/

theorem raise_cell (l : Levels) (a c v a' c' : Nat) : (l.raise a c v).cell a' c' =
    if a' = a ∧ c' = c then max (l.cell a c) v else l.cell a' c' := by
  simp only [Levels.raise, setAt]
  by_cases h1 : a' = a
  · subst h1
    by_cases h2 : c' = c
    · subst h2; simp [setAt]
    · simp [setAt, h2]
  · simp [h1]

theorem raise_side (l : Levels) (a c v : Nat) : (l.raise a c v).side = l.side := rfl

variable {G : Graph} {mate : Loc → Option Loc} {s : State}

/-- `L a t` is the length of the longest chain: it exceeds the value of everything `t` waits for, and
is zero or one more than one of these. -/
structure IsLevel (G : Graph) (mate : Loc → Option Loc) (L : Nat → Nat × Nat → Nat) : Prop where
  above : ∀ a < G.angles.length, ∀ x y, G.In x → mate x = some y →
    G.wait x.rank a x.cell x.face = true → L a (y.rank, y.cell) + 1 ≤ L a (x.rank, x.cell)
  tight : ∀ a < G.angles.length, ∀ r c, r < G.nRanks → c < (G.mesh r).nCells → L a (r, c) = 0 ∨
    ∃ f y, mate ⟨r, c, f⟩ = some y ∧ G.wait r a c f = true ∧ L a (r, c) = L a (y.rank, y.cell) + 1
  small : ∀ a < G.angles.length, ∀ r c, r < G.nRanks → c < (G.mesh r).nCells → L a (r, c) + 1 < 2 ^ 64

/-- No level is too high. -/
def Low (G : Graph) (L : Nat → Nat × Nat → Nat) (r : Nat) (l : Levels) : Prop :=
  ∀ a c, a < G.angles.length → c < (G.mesh r).nCells → l.cell a c ≤ L a (r, c)

/-- Levels have not gone down. -/
def Above (l0 l : Levels) : Prop := ∀ a c, l0.cell a c ≤ l.cell a c

section
variable (J : Joined G mate) {L : Nat → Nat × Nat → Nat} (H : IsLevel G mate L)
include J H

/-- A pair all of whose children have reported has its level. -/
theorem level_eq {r : Nat} (hr : r < G.nRanks) {l : Levels} (hlow : Low G L r l) {a c : Nat}
    (ha : a < G.angles.length) (hc : c < (G.mesh r).nCells)
    (hgot : ∀ f y, mate ⟨r, c, f⟩ = some y → G.wait r a c f = true →
      L a (y.rank, y.cell) + 1 ≤ l.cell a c) : l.cell a c = L a (r, c) := by
  refine le_antisymm (hlow a c ha hc) ?_
  rcases H.tight a ha r c hr hc with h0 | ⟨f, y, hm, hw, he⟩
  · omega
  · rw [he]; exact hgot f y hm hw

theorem updateFaces {r : Nat} (hr : r < G.nRanks) {a c : Nat} (ha : a < G.angles.length)
    (hc : c < (G.mesh r).nCells) : ∀ (fs : List Face) (l : Levels), Low G L r l →
    l.cell a c = L a (r, c) →
    let l' := fs.foldl (G.updateFace r (G.work (a, c))) l
    Low G L r l' ∧ Above l l' ∧ l'.side = l.side ∧
    ∀ f ∈ fs, ∀ n, G.free r a c f = true → (G.mesh r).adjCell c f = some n → L a (r, c) + 1 ≤ l'.cell a n := by
  intro fs
  induction fs with
  | nil => intro l hlow _; exact ⟨hlow, fun _ _ => le_refl _, rfl, by simp⟩
  | cons f fs ih =>
    intro l hlow hlev
    rw [List.foldl_cons]
    have key : Low G L r (G.updateFace r (G.work (a, c)) l f) ∧ Above l (G.updateFace r (G.work (a, c)) l f) ∧
        (G.updateFace r (G.work (a, c)) l f).side = l.side ∧
        ∀ n, G.free r a c f = true → (G.mesh r).adjCell c f = some n →
          L a (r, c) + 1 ≤ (G.updateFace r (G.work (a, c)) l f).cell a n := by
      simp only [Graph.updateFace, Graph.work, glAngle_get J ha]
      by_cases hf : G.free r a c f = true
      · rw [if_pos hf]
        have hin : G.In ⟨r, c, f⟩ := ⟨hr, hc⟩
        cases hn : (G.mesh r).adjCell c f with
        | none => exact ⟨hlow, fun _ _ => le_refl _, rfl, by simp⟩
        | some n =>
          obtain ⟨y, hy⟩ := Option.ne_none_iff_exists'.1 (J.free_mate _ a hin hf)
          have hyr : y.rank = r := by
            by_contra hne
            have := (J.far _ _ hin hy hne).1
            simp only at this
            rw [hn] at this
            simp at this
          have hyc : y.cell = n := by
            have := J.near _ _ hin hy hyr
            simp only at this
            rw [hn] at this
            exact (Option.some.inj this).symm
          have hyin := J.mate_in _ _ hin hy
          have hyw : G.wait y.rank a y.cell y.face = true := by
            rw [J.sync y _ a hyin (J.mate_symm _ _ hin hy) ha]; exact hf
          have hab := H.above a ha y _ hyin (J.mate_symm _ _ hin hy) hyw
          simp only [hyr, hyc] at hab
          have hmod : (l.cell a c + 1) % 2 ^ 64 = L a (r, c) + 1 := by
            rw [hlev, Nat.mod_eq_of_lt (H.small a ha r c hr hc)]
          dsimp only
          rw [hmod]
          refine ⟨?_, ?_, rfl, ?_⟩
          · intro a' c' ha' hc'
            rw [raise_cell]
            split
            · rename_i he
              obtain ⟨rfl, rfl⟩ := he
              exact max_le (hlow _ _ ha' hc') hab
            · exact hlow _ _ ha' hc'
          · intro a' c'
            rw [raise_cell]
            split
            · rename_i he
              obtain ⟨rfl, rfl⟩ := he
              exact le_max_left _ _
            · exact le_refl _
          · intro n' _ hn'
            injection hn' with hn'
            subst hn'
            rw [raise_cell, if_pos ⟨rfl, rfl⟩]
            exact le_max_right _ _
      · rw [if_neg hf]
        exact ⟨hlow, fun _ _ => le_refl _, rfl, fun _ h => absurd h hf⟩
    obtain ⟨k1, k2, k3, k4⟩ := key
    have hlev' : (G.updateFace r (G.work (a, c)) l f).cell a c = L a (r, c) :=
      le_antisymm (k1 a c ha hc) (hlev ▸ k2 a c)
    obtain ⟨i1, i2, i3, i4⟩ := ih _ k1 hlev'
    refine ⟨i1, fun a c => (k2 a c).trans (i2 a c), i3.trans k3, ?_⟩
    intro f' hf' n hfree hn
    rcases List.mem_cons.1 hf' with rfl | hf'
    · exact (k4 n hfree hn).trans (i2 a n)
    · exact i4 f' hf' n hfree hn

/-- Everything credited so far has been reported. -/
def Told (G : Graph) (mate : Loc → Option Loc) (L : Nat → Nat × Nat → Nat) (r : Nat)
    (Dprev : Nat → List (Nat × Nat)) (D : List (Nat × Nat)) (l : Levels) : Prop :=
  ∀ a c f y, a < G.angles.length → c < (G.mesh r).nCells → mate ⟨r, c, f⟩ = some y →
    G.wait r a c f = true → Got mate r Dprev D a c f → L a (y.rank, y.cell) + 1 ≤ l.cell a c

theorem updateLevels_spec {r : Nat} (hr : r < G.nRanks) {Dprev : Nat → List (Nat × Nat)} :
    ∀ (E D : List (Nat × Nat)) (l : Levels), (∀ t ∈ E, t.1 < G.angles.length ∧ t.2 < (G.mesh r).nCells) →
    (∀ l1 t l2, E = l1 ++ t :: l2 → ∀ f, G.wait r t.1 t.2 f = true → Got mate r Dprev (D ++ l1) t.1 t.2 f) →
    Low G L r l → Told G mate L r Dprev D l →
    let l' := G.updateLevels r (E.map G.work) l
    Low G L r l' ∧ Above l l' ∧ l'.side = l.side ∧ Told G mate L r Dprev (D ++ E) l' ∧
    ∀ t ∈ E, l'.cell t.1 t.2 = L t.1 (r, t.2) := by
  intro E
  induction E with
  | nil =>
    intro D l _ _ hlow htold
    exact ⟨hlow, fun _ _ => le_refl _, rfl, by rw [List.append_nil]; exact htold, by simp⟩
  | cons t E ih =>
    intro D l hval hord hlow htold
    obtain ⟨ha, hc⟩ := hval t (by simp)
    have hlev : l.cell t.1 t.2 = L t.1 (r, t.2) := by
      refine level_eq J H hr hlow ha hc ?_
      intro f y hm hw
      have := hord [] t E rfl f hw
      rw [List.append_nil] at this
      exact htold t.1 t.2 f y ha hc hm hw this
    obtain ⟨k1, k2, k3, k4⟩ := updateFaces J H hr ha hc (List.finRange 4) l hlow hlev
    have htold' : Told G mate L r Dprev (D ++ [t])
        ((List.finRange 4).foldl (G.updateFace r (G.work t)) l) := by
      intro a c f y ha' hc' hm hw hgot
      have hin : G.In ⟨r, c, f⟩ := ⟨hr, hc'⟩
      obtain ⟨y', hy', hd⟩ := hgot
      rw [hm] at hy'
      injection hy' with hy'
      subst hy'
      by_cases hyr : y.rank = r
      · rw [if_pos hyr, List.mem_append, List.mem_singleton] at hd
        rcases hd with hd | hd
        · exact (htold a c f y ha' hc' hm hw ⟨y, hm, by rw [if_pos hyr]; exact hd⟩).trans (k2 a c)
        · obtain ⟨t1, t2⟩ := t
          injection hd with h1 h2
          subst h1; subst h2
          have hym : mate ⟨r, y.cell, y.face⟩ = some ⟨r, c, f⟩ := by
            have := J.mate_symm _ _ hin hm
            rw [← this]
            cases y; simp only at hyr; subst hyr; rfl
          have hfree : G.free r a y.cell y.face = true := by
            have := J.sync _ _ a hin hm ha'
            rw [hyr] at this
            rw [← this]; exact hw
          have hn := J.near _ _ (show G.In ⟨r, y.cell, y.face⟩ from ⟨hr, hc⟩) hym rfl
          have := k4 y.face (List.mem_finRange _) c hfree hn
          rw [hyr]
          exact this
      · rw [if_neg hyr] at hd
        exact (htold a c f y ha' hc' hm hw ⟨y, hm, by rw [if_neg hyr]; exact hd⟩).trans (k2 a c)
    have hih := ih (D ++ [t]) _ (fun u hu => hval u (by simp [hu])) (by
      intro l1 u l2 he f hw
      have := hord (t :: l1) u l2 (by rw [he]; rfl) f hw
      rwa [List.append_assoc, List.singleton_append]) k1 htold'
    obtain ⟨i1, i2, i3, i4, i5⟩ := hih
    refine ⟨i1, fun a c => (k2 a c).trans (i2 a c), i3.trans k3, ?_, ?_⟩
    · rw [List.append_assoc, List.singleton_append] at i4
      exact i4
    · intro u hu
      rcases List.mem_cons.1 hu with rfl | hu
      · refine le_antisymm (i1 _ _ ha hc) ?_
        rw [← hlev]
        exact (k2 _ _).trans (i2 _ _)
      · exact i5 u hu

/-- A message entry for rank `r`: side of `x`, with the level of `x`'s mate. -/
def GoodEntry (G : Graph) (mate : Loc → Option Loc) (L : Nat → Nat × Nat → Nat) (r : Nat)
    (e : Nat × Nat × Nat) : Prop :=
  ∃ x y, x.rank = r ∧ G.In x ∧ mate x = some y ∧ y.rank ≠ r ∧ e.2.1 < G.angles.length ∧
    G.wait r e.2.1 x.cell x.face = true ∧
    (G.mesh r).glSide e.1 = (G.mesh r).side x.cell x.face ∧ (G.mesh r).sideCell ((G.mesh r).glSide e.1) = x.cell ∧
    e.2.2 = L e.2.1 (y.rank, y.cell)

/-- Levels of sides: what was received. -/
def SideOk (G : Graph) (mate : Loc → Option Loc) (L : Nat → Nat × Nat → Nat) (r : Nat)
    (Dprev : Nat → List (Nat × Nat)) (l : Levels) : Prop :=
  ∀ a c f y, a < G.angles.length → c < (G.mesh r).nCells → mate ⟨r, c, f⟩ = some y → y.rank ≠ r →
    G.wait r a c f = true → (a, y.cell) ∈ Dprev y.rank →
    l.side a ((G.mesh r).side c f) = L a (y.rank, y.cell)

theorem recvLevel_list {r : Nat} (hr : r < G.nRanks) : ∀ (es : List (Nat × Nat × Nat)) (l : Levels),
    (∀ e ∈ es, GoodEntry G mate L r e) → Low G L r l →
    let l' := es.foldl (G.recvLevel r) l
    Low G L r l' ∧ Above l l' ∧
    (∀ a c f y, a < G.angles.length → c < (G.mesh r).nCells → mate ⟨r, c, f⟩ = some y → y.rank ≠ r →
      G.wait r a c f = true →
      (l.side a ((G.mesh r).side c f) = L a (y.rank, y.cell) →
        l'.side a ((G.mesh r).side c f) = L a (y.rank, y.cell)) ∧
      (∀ e ∈ es, e.2.1 = a → (G.mesh r).glSide e.1 = (G.mesh r).side c f →
        l'.side a ((G.mesh r).side c f) = L a (y.rank, y.cell) ∧ L a (y.rank, y.cell) + 1 ≤ l'.cell a c)) := by
  intro es
  induction es with
  | nil =>
    intro l _ hlow
    exact ⟨hlow, fun _ _ => le_refl _, fun a c f y _ _ _ _ _ => ⟨id, by simp⟩⟩
  | cons e es ih =>
    intro l hes hlow
    rw [List.foldl_cons]
    obtain ⟨x, y, hxr, hx, hm, hyr, hea, hw, hgl, hsc, hev⟩ := hes e (by simp)
    obtain ⟨xr, xc, xf⟩ := x
    simp only at hxr hw hgl hsc
    subst hxr
    have hyin := J.mate_in _ _ hx hm
    have hab := H.above _ hea _ _ hx hm hw
    have hmod : (e.2.2 + 1) % 2 ^ 64 = L e.2.1 (y.rank, y.cell) + 1 := by
      rw [hev, Nat.mod_eq_of_lt (H.small _ hea _ _ hyin.1 hyin.2)]
    have hcell : ∀ a c, (G.recvLevel xr l e).cell a c = if a = e.2.1 ∧ c = xc then
        max (l.cell e.2.1 xc) (L e.2.1 (y.rank, y.cell) + 1) else l.cell a c := by
      intro a c
      show (l.raise e.2.1 _ _).cell a c = _
      rw [raise_cell, hsc, hmod]
    have hside : ∀ a sd, (G.recvLevel xr l e).side a sd = if a = e.2.1 ∧ sd = (G.mesh xr).side xc xf then
        L e.2.1 (y.rank, y.cell) else l.side a sd := by
      intro a sd
      show setAt l.side e.2.1 (setAt (l.side e.2.1) ((G.mesh xr).glSide e.1) e.2.2) a sd = _
      rw [hgl, hev]
      by_cases h1 : a = e.2.1
      · subst h1
        by_cases h2 : sd = (G.mesh xr).side xc xf
        · subst h2; simp [setAt]
        · simp [setAt, h2]
      · simp [setAt, h1]
    have hlow' : Low G L xr (G.recvLevel xr l e) := by
      intro a c ha hc
      rw [hcell]
      split
      · rename_i h
        obtain ⟨rfl, rfl⟩ := h
        exact max_le (hlow _ _ ha hc) hab
      · exact hlow _ _ ha hc
    have habove : Above l (G.recvLevel xr l e) := by
      intro a c
      rw [hcell]
      split
      · rename_i h
        obtain ⟨rfl, rfl⟩ := h
        exact le_max_left _ _
      · exact le_refl _
    obtain ⟨i1, i2, i3⟩ := ih (G.recvLevel xr l e) (fun e' he' => hes e' (by simp [he'])) hlow'
    refine ⟨i1, fun a c => (habove a c).trans (i2 a c), ?_⟩
    intro a c f z ha hc hmz hzr hwz
    obtain ⟨j1, j2⟩ := i3 a c f z ha hc hmz hzr hwz
    -- an entry for this side carries the level of this mate
    have hsame : a = e.2.1 → (G.mesh xr).side c f = (G.mesh xr).side xc xf →
        c = xc ∧ z = y := by
      intro _ hs
      have := J.side_inj ⟨xr, c, f⟩ ⟨xr, xc, xf⟩ z y ⟨hr, hc⟩ hx hmz hm hzr hyr rfl hs
      injection this with _ h1 h2
      subst h1; subst h2
      rw [hmz] at hm
      exact ⟨rfl, Option.some.inj hm⟩
    refine ⟨fun h => j1 ?_, ?_⟩
    · rw [hside]
      split
      · rename_i hh
        obtain ⟨-, rfl⟩ := hsame hh.1 hh.2
        rw [hh.1]
      · exact h
    · intro e' he' hea' hgl'
      rcases List.mem_cons.1 he' with rfl | he'
      · obtain ⟨rfl, rfl⟩ := hsame hea'.symm (hgl'.symm.trans hgl)
        subst hea'
        constructor
        · refine j1 ?_
          rw [hside, if_pos ⟨rfl, hgl'.symm.trans hgl⟩]
        · refine le_trans ?_ (i2 _ _)
          rw [hcell, if_pos ⟨rfl, rfl⟩]
          exact le_max_right _ _
      · exact j2 e' he' hea' hgl'

theorem levelBox_good {r q : Nat} (hq : q < G.nRanks) {E : List (Nat × Nat)} {l : Levels}
    (hE : ∀ t ∈ E, t.1 < G.angles.length ∧ t.2 < (G.mesh q).nCells)
    (hl : ∀ t ∈ E, l.cell t.1 t.2 = L t.1 (q, t.2)) :
    (∀ e ∈ G.levelBox q l (E.map G.work) r, GoodEntry G mate L r e) ∧
    ∀ a c f y, a < G.angles.length → r < G.nRanks → c < (G.mesh r).nCells → mate ⟨r, c, f⟩ = some y →
      y.rank = q → q ≠ r → G.wait r a c f = true → (a, y.cell) ∈ E →
      ∃ e ∈ G.levelBox q l (E.map G.work) r, e.2.1 = a ∧ (G.mesh r).glSide e.1 = (G.mesh r).side c f := by
  constructor
  · intro e he
    simp only [Graph.levelBox, List.mem_flatMap, List.mem_map, List.mem_filterMap, List.mem_finRange,
      true_and] at he
    obtain ⟨w, ⟨t, ht, rfl⟩, f, hf⟩ := he
    obtain ⟨ha, hc⟩ := hE t ht
    simp only [Graph.work, glAngle_get J ha] at hf
    split at hf <;> [skip; simp at hf]
    rename_i hcond
    injection hf with hf
    subst hf
    have hin : G.In ⟨q, t.2, f⟩ := ⟨hq, hc⟩
    obtain ⟨x, hm, hxr, hne⟩ := mate_of_far J hin hcond.2.1 hcond.2.2
    have hxin := J.mate_in _ _ hin hm
    have hb := J.mate_symm _ _ hin hm
    have h1 := J.side_eq _ _ hin hm (by rw [hxr]; exact hne)
    have h2 := J.side_cell x _ hxin hb (by rw [hxr]; exact fun h => hne h.symm)
    rw [hxr] at h1 h2
    refine ⟨x, ⟨q, t.2, f⟩, hxr, hxin, hb, fun h => hne h.symm, ha, ?_, h1, ?_, hl t ht⟩
    · have := J.sync x _ t.1 hxin hb ha
      rw [hxr] at this
      rw [this]; exact hcond.1
    · simp only at h1 ⊢
      rw [h1]; exact h2
  · intro a c f y ha hr hc hm hyq hqr hw hy
    have hin : G.In ⟨r, c, f⟩ := ⟨hr, hc⟩
    have hyin := J.mate_in _ _ hin hm
    have hb := J.mate_symm _ _ hin hm
    have hfar := J.far y _ hyin hb (by rw [hyq]; exact fun h => hqr h.symm)
    have hse := J.side_eq y _ hyin hb (by rw [hyq]; exact fun h => hqr h.symm)
    have hfree := J.sync _ _ a hin hm ha
    simp only at hfree
    rw [hyq] at hfar hse hfree
    refine ⟨((G.mesh q).lgSide ((G.mesh q).side y.cell y.face), a, l.cell a y.cell), ?_, rfl, hse⟩
    simp only [Graph.levelBox, List.mem_flatMap, List.mem_map, List.mem_filterMap, List.mem_finRange,
      true_and]
    refine ⟨_, ⟨_, hy, rfl⟩, y.face, ?_⟩
    simp only [Graph.work, glAngle_get J ha]
    rw [if_pos ⟨by rw [← hfree]; exact hw, hfar.1, hfar.2⟩]

theorem recvLevels_spec {r : Nat} (hr : r < G.nRanks) {box : Nat → List (Nat × Nat × Nat)} :
    ∀ (N : List Nat) (l : Levels), (∀ q ∈ N, ∀ e ∈ box q, GoodEntry G mate L r e) → Low G L r l →
    let l' := N.foldl (fun l q => (box q).foldl (G.recvLevel r) l) l
    Low G L r l' ∧ Above l l' ∧
    (∀ a c f y, a < G.angles.length → c < (G.mesh r).nCells → mate ⟨r, c, f⟩ = some y → y.rank ≠ r →
      G.wait r a c f = true →
      (l.side a ((G.mesh r).side c f) = L a (y.rank, y.cell) →
        l'.side a ((G.mesh r).side c f) = L a (y.rank, y.cell)) ∧
      (∀ q ∈ N, ∀ e ∈ box q, e.2.1 = a → (G.mesh r).glSide e.1 = (G.mesh r).side c f →
        l'.side a ((G.mesh r).side c f) = L a (y.rank, y.cell) ∧
        L a (y.rank, y.cell) + 1 ≤ l'.cell a c)) := by
  intro N
  induction N with
  | nil =>
    intro l _ hlow
    exact ⟨hlow, fun _ _ => le_refl _, fun a c f y _ _ _ _ _ => ⟨id, by simp⟩⟩
  | cons q N ih =>
    intro l hes hlow
    rw [List.foldl_cons]
    obtain ⟨k1, k2, k3⟩ := recvLevel_list J H hr (box q) l (hes q (by simp)) hlow
    obtain ⟨i1, i2, i3⟩ := ih _ (fun q' hq' => hes q' (by simp [hq'])) k1
    refine ⟨i1, fun a c => (k2 a c).trans (i2 a c), ?_⟩
    intro a c f y ha hc hm hyr hw
    obtain ⟨p1, p2⟩ := k3 a c f y ha hc hm hyr hw
    obtain ⟨q1, q2⟩ := i3 a c f y ha hc hm hyr hw
    refine ⟨fun h => q1 (p1 h), ?_⟩
    intro q' hq' e he hea hgl
    rcases List.mem_cons.1 hq' with rfl | hq'
    · obtain ⟨h1, h2⟩ := p2 e he hea hgl
      exact ⟨q1 h1, h2.trans (i2 a c)⟩
    · exact q2 q' hq' e he hea hgl

/-- What holds between steps of `calcLevels`. -/
structure LevelInv (G : Graph) (mate : Loc → Option Loc) (L : Nat → Nat × Nat → Nat) (s : State)
    (lev : Nat → Levels) (E : Nat → List (List (Nat × Nat))) : Prop where
  inv : Inv G mate s E
  low : ∀ r < G.nRanks, Low G L r (lev r)
  told : ∀ r < G.nRanks, Told G mate L r (fun q => (E q).flatten) (E r).flatten (lev r)
  side : ∀ r < G.nRanks, SideOk G mate L r (fun q => (E q).flatten) (lev r)

theorem LevelsReached.inv {lev : Nat → Levels} (h : LevelsReached G s lev) :
    ∃ E, LevelInv G mate L s lev E := by
  induction h with
  | init =>
    refine ⟨_, Inv.init G mate, fun r _ a c _ _ => Nat.zero_le _, ?_, ?_⟩
    · rintro r - a c f y - - - - ⟨y', -, hd⟩
      simp at hd
    · rintro r - a c f y - - - - - hd
      simp at hd
  | step s lev w d _ hnd htopo ih =>
    obtain ⟨E, hE⟩ := ih
    obtain ⟨F, hF, -⟩ := hE.inv.step J (prio := fun _ _ _ => 0) (.mk s w d hnd htopo)
    refine ⟨fun r => E r ++ [F r], ?_⟩
    -- the sorted lists are those of the invariant
    have hd : ∀ q < G.nRanks, d q = (F q).map G.work := by
      intro q hq
      have h1 := hF.orders q hq
      simp only [Graph.after, List.map_append, List.map_cons, List.map_nil] at h1
      have h2 := congrArg List.reverse h1
      simp only [List.reverse_append, List.reverse_cons, List.reverse_nil, List.nil_append,
        List.singleton_append, List.cons.injEq] at h2
      exact h2.1
    have hval : ∀ q < G.nRanks, ∀ t ∈ F q, t.1 < G.angles.length ∧ t.2 < (G.mesh q).nCells := by
      intro q hq t ht
      obtain ⟨h1, h2, -⟩ := ((hF.rank q hq).mem t).1 (by simp [ht])
      exact ⟨h1, h2⟩
    obtain ⟨k, hk⟩ := hE.inv.steps
    have hord : ∀ q < G.nRanks, ∀ l1 t l2, F q = l1 ++ t :: l2 → ∀ f, G.wait q t.1 t.2 f = true →
        Got mate q (fun q => (E q).flatten) ((E q).flatten ++ l1) t.1 t.2 f := by
      intro q hq l1 t l2 he f hw
      have h1 := hF.order q hq k l1 t l2 (by
        rw [List.getElem?_append_right (by rw [hk q hq]), hk q hq]
        simp [he]) f hw
      obtain ⟨y, hy, hgot⟩ := h1
      refine ⟨y, hy, ?_⟩
      have ht := hval q hq t (by rw [he]; simp)
      have hyr : y.rank < G.nRanks := (J.mate_in _ _ (show G.In ⟨q, t.2, f⟩ from ⟨hq, ht.2⟩) hy).1
      have htake : ∀ p < G.nRanks, (E p ++ [F p]).take k = E p := by
        intro p hp
        rw [List.take_append_of_le_length (by rw [hk p hp])]
        rw [← hk p hp, List.take_length]
      simp only [htake q hq, htake y.rank hyr] at hgot
      exact hgot
    have hupd := fun q (hq : q < G.nRanks) => updateLevels_spec J H hq (F q) (E q).flatten (lev q)
      (hval q hq) (hord q hq) (hE.low q hq) (hE.told q hq)
    have hbox := fun r q (hq : q < G.nRanks) => levelBox_good J H (r := r) hq (hval q hq)
      (hupd q hq).2.2.2.2
    have hlevels : ∀ r < G.nRanks, G.afterLevels lev d r =
        (G.neighbors r).foldl (fun l q => (G.levelBox q (G.updateLevels q ((F q).map G.work) (lev q))
          ((F q).map G.work) r).foldl (G.recvLevel r) l) (G.updateLevels r ((F r).map G.work) (lev r)) := by
      intro r hr
      unfold Graph.afterLevels Graph.recvLevels
      rw [hd r hr]
      have : ∀ (N : List Nat), (∀ q ∈ N, q < G.nRanks) → ∀ l : Levels,
        N.foldl (fun l q => (G.levelBox q (G.updateLevels q (d q) (lev q)) (d q) r).foldl
          (G.recvLevel r) l) l =
        N.foldl (fun l q => (G.levelBox q (G.updateLevels q ((F q).map G.work) (lev q))
          ((F q).map G.work) r).foldl (G.recvLevel r) l) l := by
        intro N
        induction N with
        | nil => intro _ _; rfl
        | cons q N ih =>
          intro hN l
          rw [List.foldl_cons, List.foldl_cons, hd q (hN q (by simp)),
            ih fun q' hq' => hN q' (by simp [hq'])]
      exact this _ (fun q hq => (mem_neighbors.1 hq).1) _
    have hrecv := fun r (hr : r < G.nRanks) => recvLevels_spec J H hr
      (box := fun q => G.levelBox q (G.updateLevels q ((F q).map G.work) (lev q)) ((F q).map G.work) r)
      (G.neighbors r) (G.updateLevels r ((F r).map G.work) (lev r))
      (fun q hq => (hbox r q (mem_neighbors.1 hq).1).1) (hupd r hr).1
    -- entries for the faces credited in this step
    have hentry : ∀ r < G.nRanks, ∀ a c f y, a < G.angles.length → c < (G.mesh r).nCells →
        mate ⟨r, c, f⟩ = some y → y.rank ≠ r → G.wait r a c f = true → (a, y.cell) ∈ F y.rank →
        ∃ q ∈ G.neighbors r, ∃ e ∈ G.levelBox q (G.updateLevels q ((F q).map G.work) (lev q))
          ((F q).map G.work) r, e.2.1 = a ∧ (G.mesh r).glSide e.1 = (G.mesh r).side c f := by
      intro r hr a c f y ha hc hm hyr hw hy
      have hin : G.In ⟨r, c, f⟩ := ⟨hr, hc⟩
      have hyin := J.mate_in _ _ hin hm
      have hfar := J.far _ _ hin hm hyr
      exact ⟨y.rank, mem_neighbors.2 ⟨hyin.1, c, f, hc, hfar.1, hfar.2⟩,
        (hbox r y.rank hyin.1).2 a c f y ha hr hc hm rfl hyr hw hy⟩
    refine ⟨hF, ?_, ?_, ?_⟩
    · intro r hr
      rw [hlevels r hr]
      exact (hrecv r hr).1
    · intro r hr a c f y ha hc hm hw hgot
      rw [hlevels r hr]
      obtain ⟨y', hy', hgot⟩ := hgot
      rw [hm] at hy'
      injection hy' with hy'
      subst hy'
      obtain ⟨-, -, -, htold, -⟩ := hupd r hr
      by_cases hyr : y.rank = r
      · rw [if_pos hyr] at hgot
        refine (htold a c f y ha hc hm hw ⟨y, hm, ?_⟩).trans ((hrecv r hr).2.1 a c)
        rw [if_pos hyr]
        simpa using hgot
      · rw [if_neg hyr] at hgot
        simp only [List.flatten_append, List.flatten_cons, List.flatten_nil, List.append_nil,
          List.mem_append] at hgot
        rcases hgot with hgot | hgot
        · exact (htold a c f y ha hc hm hw ⟨y, hm, by rw [if_neg hyr]; exact hgot⟩).trans
            ((hrecv r hr).2.1 a c)
        · obtain ⟨q, hq, e, he, hea, hgl⟩ := hentry r hr a c f y ha hc hm hyr hw hgot
          exact (((hrecv r hr).2.2 a c f y ha hc hm hyr hw).2 q hq e he hea hgl).2
    · intro r hr a c f y ha hc hm hyr hw hgot
      rw [hlevels r hr]
      simp only [List.flatten_append, List.flatten_cons, List.flatten_nil, List.append_nil,
        List.mem_append] at hgot
      rcases hgot with hgot | hgot
      · refine ((hrecv r hr).2.2 a c f y ha hc hm hyr hw).1 ?_
        rw [(hupd r hr).2.2.1]
        exact hE.side r hr a c f y ha hc hm hyr hw hgot
      · obtain ⟨q, hq, e, he, hea, hgl⟩ := hentry r hr a c f y ha hc hm hyr hw hgot
        exact (((hrecv r hr).2.2 a c f y ha hc hm hyr hw).2 q hq e he hea hgl).1

end

theorem LevelsReached.reached {lev : Nat → Levels} (h : LevelsReached G s lev) :
    Reached G (fun _ _ _ => 0) s := by
  induction h with
  | init => exact .init
  | step s lev w d _ hnd htopo ih => exact .step _ _ ih (.mk s w d hnd htopo)

end Verif.Schedule
