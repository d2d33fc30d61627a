import Verif.Traverse.Lemmas8
import Mathlib.Data.Fintype.Sigma
import Mathlib.Data.Finset.Sigma

set_option linter.unusedSectionVars false

namespace Verif.Traverse
open Classical List

variable {D B : Type}

/-- An execution of `n` steps. -/
inductive Run (cfg : Cfg D B) : Nat → State D B → State D B → Prop
  | nil (s) : Run cfg 0 s s
  | snoc {n s s' s''} : Run cfg n s s' → Step cfg s' s'' → Run cfg (n + 1) s s''

theorem Run.reachable {cfg : Cfg D B} {n : Nat} {s s' : State D B} (h : Run cfg n s s')
    (h0 : Reachable cfg s) : Reachable cfg s' := by
  induction h with
  | nil => exact h0
  | snoc _ hs ih => exact (ih h0).step hs

def Phase.idle : Phase B → Nat
  | .exchanging .. => 0
  | _ => 1

/-- A measure every step increases. -/
def work (cfg : Cfg D B) (s : State D B) : Nat :=
  total s.log + ∑ r ∈ Finset.range cfg.nRanks, (2 * (s.rank r).round + (s.rank r).phase.idle) +
    ∑ r ∈ Finset.range cfg.nRanks, ∑ q ∈ Finset.range cfg.nRanks, (s.rank r).recvd q

theorem sum_setAt_lt {α : Type} (f : Nat → α) (g : α → Nat) {n r : Nat} (hr : r < n) {v : α}
    (h : g (f r) < g v) : ∑ i ∈ Finset.range n, g (f i) < ∑ i ∈ Finset.range n, g (setAt f r v i) := by
  apply Finset.sum_lt_sum
  · intro i _
    by_cases hi : i = r
    · subst hi; rw [setAt_same]; exact h.le
    · rw [setAt_ne _ _ hi]
  · exact ⟨r, Finset.mem_range.2 hr, by rw [setAt_same]; exact h⟩

theorem sum_setAt_eq {α : Type} (f : Nat → α) (g : α → Nat) {n r : Nat} {v : α}
    (h : g v = g (f r)) : ∑ i ∈ Finset.range n, g (setAt f r v i) = ∑ i ∈ Finset.range n, g (f i) := by
  apply Finset.sum_congr rfl
  intro i _
  by_cases hi : i = r
  · subst hi; rw [setAt_same, h]
  · rw [setAt_ne _ _ hi]

theorem idle_loopTest (cfg : Cfg D B) (n : Nat) : (loopTest (B := B) cfg n).idle = 1 := by
  unfold loopTest
  split
  · rfl
  · split <;> rfl

theorem work_step {cfg : Cfg D B} {mate : Loc → Option Loc} (L : Linked cfg mate)
    (ht : cfg.doComm = true → cfg.protocol = .tycho) {s s' : State D B}
    (h : Reachable cfg s) (hs : Step cfg s s') : work cfg s < work cfg s' := by
  have hnc : ∀ r k ps got, (s.rank r).phase = .exchanging k ps got → cfg.doComm = true := by
    intro r k ps got hp
    by_contra hd
    rcases nocomm_phase (by simpa using hd) h r with h1 | h1 <;> rw [hp] at h1 <;>
      simp [Phase.isComputing] at h1
  unfold work
  cases hs with
  | compute r g steps l1 l2 t hr hg hphase hq htop hsteps =>
    dsimp only
    rw [sum_setAt_eq s.rank (fun x : RankState D B => 2 * x.round + x.phase.idle)
        (by dsimp only; rw [computeOne_round, hphase]; rfl),
      sum_setAt_eq s.rank (fun x : RankState D B => ∑ q ∈ Finset.range cfg.nRanks, x.recvd q)
        (by dsimp only; rw [computeOne_recvd])]
    unfold total
    rw [List.countP_append]
    simp [isTask]
  | skip r steps hr hphase hdone hcomm =>
    dsimp only
    have h1 := sum_setAt_lt s.rank (fun x : RankState D B => 2 * x.round + x.phase.idle) hr
      (v := { s.rank r with
            phase := loopTest cfg (s.rank r).remaining
            round := (s.rank r).round + 1 }) (by dsimp only; rw [idle_loopTest, hphase]; dsimp only [Phase.idle]; omega)
    have h2 := sum_setAt_eq (n := cfg.nRanks) s.rank
      (fun x : RankState D B => ∑ q ∈ Finset.range cfg.nRanks, x.recvd q)
      (r := r) (v := { s.rank r with
            phase := loopTest cfg (s.rank r).remaining
            round := (s.rank r).round + 1 }) rfl
    dsimp only at h1 h2
    omega
  | send r steps hr hphase hdone hcomm =>
    dsimp only
    have h1 := sum_setAt_lt s.rank (fun x : RankState D B => 2 * x.round + x.phase.idle) hr
      (v := { s.rank r with
            phase := .exchanging false (sources cfg r (s.rank r)) []
            sendBuf := fun _ _ => []
            round := (s.rank r).round + 1
            sent := fun q => if q ∈ targets cfg r (s.rank r) then (s.rank r).sent q + 1
              else (s.rank r).sent q })
      (by dsimp only; rw [hphase]; dsimp only [Phase.idle]; omega)
    have h2 := sum_setAt_eq (n := cfg.nRanks) s.rank
      (fun x : RankState D B => ∑ q ∈ Finset.range cfg.nRanks, x.recvd q)
      (r := r) (v := { s.rank r with
            phase := .exchanging false (sources cfg r (s.rank r)) []
            sendBuf := fun _ _ => []
            round := (s.rank r).round + 1
            sent := fun q => if q ∈ targets cfg r (s.rank r) then (s.rank r).sent q + 1
              else (s.rank r).sent q }) rfl
    dsimp only at h1 h2
    omega
  | kill r hr hphase =>
    dsimp only
    have h1 := sum_setAt_lt s.rank (fun x : RankState D B => 2 * x.round + x.phase.idle) hr
      (v := { s.rank r with
            phase := .exchanging true (sources cfg r (s.rank r)) []
            round := (s.rank r).round + 1
            sent := fun q => if q ∈ targets cfg r (s.rank r) then (s.rank r).sent q + 1
              else (s.rank r).sent q })
      (by dsimp only; rw [hphase]; dsimp only [Phase.idle]; omega)
    have h2 := sum_setAt_eq (n := cfg.nRanks) s.rank
      (fun x : RankState D B => ∑ q ∈ Finset.range cfg.nRanks, x.recvd q)
      (r := r) (v := { s.rank r with
            phase := .exchanging true (sources cfg r (s.rank r)) []
            round := (s.rank r).round + 1
            sent := fun q => if q ∈ targets cfg r (s.rank r) then (s.rank r).sent q + 1
              else (s.rank r).sent q }) rfl
    dsimp only at h1 h2
    omega
  | recv r q kill p1 p2 got m ms hr hphase hchan hcap =>
    have hd := hnc r _ _ _ hphase
    have P := h.proto L hd (ht hd)
    have hq := (P.chans q r (by rw [hchan]; simp)).1
    dsimp only
    have h1 := sum_setAt_eq (n := cfg.nRanks) s.rank
      (fun x : RankState D B => 2 * x.round + x.phase.idle)
      (r := r) (v := { s.rank r with
            phase := .exchanging kill (p1 ++ p2) (got ++ m.list.map fun p => (q, p))
            dark := darken (s.rank r).dark q m
            recvd := setAt (s.rank r).recvd q ((s.rank r).recvd q + 1) })
      (by dsimp only; rw [hphase]; rfl)
    have h2 := sum_setAt_lt s.rank
      (fun x : RankState D B => ∑ q ∈ Finset.range cfg.nRanks, x.recvd q) hr
      (v := { s.rank r with
            phase := .exchanging kill (p1 ++ p2) (got ++ m.list.map fun p => (q, p))
            dark := darken (s.rank r).dark q m
            recvd := setAt (s.rank r).recvd q ((s.rank r).recvd q + 1) })
      (sum_setAt_lt (s.rank r).recvd id hq (by simp))
    dsimp only at h1 h2
    omega
  | miss r q kill ps got hr hphase hcap hsends =>
    rw [ht (hnc r _ _ _ hphase)] at hcap; simp at hcap
  | unpack r got hr hphase hsends =>
    have h1 := sum_setAt_lt s.rank (fun x : RankState D B => 2 * x.round + x.phase.idle) hr
      (v := unpackAll cfg r got (s.rank r))
      (by rw [unpackAll_phase, unpackAll_round, idle_loopTest, hphase]; dsimp only [Phase.idle]; omega)
    have h2 := sum_setAt_eq (n := cfg.nRanks) s.rank
      (fun x : RankState D B => ∑ q ∈ Finset.range cfg.nRanks, x.recvd q)
      (r := r) (v := unpackAll cfg r got (s.rank r)) (by rw [unpackAll_recvd])
    have h3 : total s.log ≤ total (s.log ++ unpackEvents cfg r got) := by
      unfold total; rw [List.countP_append]; omega
    dsimp only at h1 h2 ⊢
    omega
  | close r got hr hphase hsends =>
    dsimp only
    have h1 := sum_setAt_lt s.rank (fun x : RankState D B => 2 * x.round + x.phase.idle) hr
      (v := { s.rank r with phase := .finished })
      (by dsimp only; rw [hphase]; dsimp only [Phase.idle]; omega)
    have h2 := sum_setAt_eq (n := cfg.nRanks) s.rank
      (fun x : RankState D B => ∑ q ∈ Finset.range cfg.nRanks, x.recvd q)
      (r := r) (v := { s.rank r with phase := .finished }) rfl
    dsimp only at h1 h2
    omega

theorem Run.work {cfg : Cfg D B} {mate : Loc → Option Loc} (L : Linked cfg mate)
    (ht : cfg.doComm = true → cfg.protocol = .tycho) {n : Nat} {s s' : State D B}
    (h : Run cfg n s s') (h0 : Reachable cfg s) : Traverse.work cfg s + n ≤ Traverse.work cfg s' := by
  induction h with
  | nil => rfl
  | snoc hr hs ih =>
    have h1 := ih h0
    have h2 := work_step L ht (hr.reachable h0) hs
    omega

theorem recvd_zero {cfg : Cfg D B} (hd : cfg.doComm = false) {s : State D B} (h : Reachable cfg s)
    (r q : Nat) : (s.rank r).recvd q = 0 := by
  induction h generalizing r q with
  | init => rfl
  | @step s s' h0 hs ih =>
    have hnc : ∀ r k ps got, (s.rank r).phase ≠ .exchanging k ps got := by
      intro r k ps got hp
      rcases nocomm_phase hd h0 r with h1 | h1 <;> rw [hp] at h1 <;> simp [Phase.isComputing] at h1
    cases hs with
    | compute r' g steps l1 l2 t hr hg hphase hq htop hsteps =>
      dsimp only
      by_cases hh : r = r'
      · subst hh; rw [setAt_same]; dsimp only; rw [computeOne_recvd]; exact ih r q
      · rw [setAt_ne _ _ hh]; exact ih r q
    | skip r' steps hr hphase hdone hcomm =>
      dsimp only
      by_cases hh : r = r'
      · subst hh; rw [setAt_same]; exact ih r q
      · rw [setAt_ne _ _ hh]; exact ih r q
    | send r' steps hr hphase hdone hcomm => rw [hd] at hcomm; simp at hcomm
    | kill r' hr hphase =>
      rcases nocomm_phase hd h0 r' with h1 | h1 <;> rw [hphase] at h1 <;> simp [Phase.isComputing] at h1
    | recv r' q' kill p1 p2 got m ms hr hphase hchan hcap => exact absurd hphase (hnc _ _ _ _)
    | miss r' q' kill ps got hr hphase hcap hsends => exact absurd hphase (hnc _ _ _ _)
    | unpack r' got hr hphase hsends => exact absurd hphase (hnc _ _ _ _)
    | close r' got hr hphase hsends => exact absurd hphase (hnc _ _ _ _)

/-- Bound on the length of executions. -/
def stepBound (cfg : Cfg D B) (b : Nat) : Nat :=
  cfg.tasks + cfg.nRanks * (2 * (cfg.tasks + b + 2) + 1) +
    cfg.nRanks * (cfg.nRanks * (cfg.tasks + b + 2))

theorem work_le {cfg : Cfg D B} {mate : Loc → Option Loc} (L : Linked cfg mate)
    {level : Nat → Nat → Nat → Nat} {b : Nat} (V : Live cfg mate level b) {s : State D B}
    (h : Reachable cfg s) : work cfg s ≤ stepBound cfg b := by
  unfold work stepBound
  have h1 := total_le L h
  have h2 : ∑ r ∈ Finset.range cfg.nRanks, (2 * (s.rank r).round + (s.rank r).phase.idle) ≤
      cfg.nRanks * (2 * (cfg.tasks + b + 2) + 1) := by
    have := Finset.sum_le_card_nsmul (Finset.range cfg.nRanks)
      (fun r => 2 * (s.rank r).round + (s.rank r).phase.idle) (2 * (cfg.tasks + b + 2) + 1) (by
        intro r hr
        have h3 := round_le L V h (Finset.mem_range.1 hr)
        have h4 : (s.rank r).phase.idle ≤ 1 := by
          rcases (s.rank r).phase with st | ⟨k, ps, got⟩ | _ | _ <;> simp [Phase.idle]
        omega)
    simpa using this
  have h3 : ∑ r ∈ Finset.range cfg.nRanks, ∑ q ∈ Finset.range cfg.nRanks, (s.rank r).recvd q ≤
      cfg.nRanks * (cfg.nRanks * (cfg.tasks + b + 2)) := by
    have hrq : ∀ r ∈ Finset.range cfg.nRanks, ∑ q ∈ Finset.range cfg.nRanks, (s.rank r).recvd q ≤
        cfg.nRanks * (cfg.tasks + b + 2) := by
      intro r hr
      have := Finset.sum_le_card_nsmul (Finset.range cfg.nRanks) (fun q => (s.rank r).recvd q)
        (cfg.tasks + b + 2) (by
          intro q _
          have h3 := round_le L V h (Finset.mem_range.1 hr)
          cases hd : cfg.doComm with
          | false => rw [recvd_zero hd h]; omega
          | true =>
            have := (h.whr L hd (V.proto hd)).recvd r q
            omega)
      simpa using this
    have := Finset.sum_le_card_nsmul (Finset.range cfg.nRanks) _ _ hrq
    simpa using this
  omega

/-- Without communication some rank can step until all have finished. -/
theorem nocomm_progress {cfg : Cfg D B} (hd : cfg.doComm = false) {s : State D B}
    (h : Reachable cfg s) (hnf : ∃ r < cfg.nRanks, (s.rank r).phase ≠ .finished) :
    ∃ s', Step cfg s s' := by
  obtain ⟨r, hr, hf⟩ := hnf
  rcases nocomm_phase hd h r with h1 | h1
  · rcases hp : (s.rank r).phase with st | ⟨k, ps, got⟩ | _ | _ <;> rw [hp] at h1
    · exact computing_step hr hp
    all_goals exact h1.elim
  · exact absurd h1 hf

/-! ### Levels from acyclicity -/

/-- The cells of all ranks. -/
def Cfg.cells (cfg : Cfg D B) : Finset (Nat × Nat) :=
  (Finset.range cfg.nRanks).biUnion fun r => (Finset.range (cfg.mesh r).nCells).image fun c => (r, c)

/-- Cell `t` must be computed before cell `t'`. -/
def Before (cfg : Cfg D B) (mate : Loc → Option Loc) (a : Nat) (t t' : Nat × Nat) : Prop :=
  ∃ x y, cfg.In x ∧ mate x = some y ∧ Needs cfg mate x a ∧ t = (y.rank, y.cell) ∧ t' = (x.rank, x.cell)

/-- No cell waits for itself. -/
def Acyclic (cfg : Cfg D B) (mate : Loc → Option Loc) : Prop :=
  ∀ a < cfg.nAngles, ∀ t, ¬ Relation.TransGen (Before cfg mate a) t t

noncomputable def levelOf (cfg : Cfg D B) (mate : Loc → Option Loc) (r c a : Nat) : Nat :=
  (cfg.cells.filter fun t => Relation.TransGen (Before cfg mate a) t (r, c)).card

/-- Number of cells of all ranks. -/
def Cfg.allCells (cfg : Cfg D B) : Nat := ∑ r ∈ Finset.range cfg.nRanks, (cfg.mesh r).nCells

theorem card_cells_le (cfg : Cfg D B) : cfg.cells.card ≤ cfg.allCells := by
  unfold Cfg.cells Cfg.allCells
  refine Finset.card_biUnion_le.trans (Finset.sum_le_sum fun r _ => ?_)
  exact Finset.card_image_le.trans (by simp)

theorem mem_cells {cfg : Cfg D B} {r c : Nat} (hr : r < cfg.nRanks) (hc : c < (cfg.mesh r).nCells) :
    (r, c) ∈ cfg.cells := by
  simp only [Cfg.cells, Finset.mem_biUnion, Finset.mem_image, Finset.mem_range]
  exact ⟨r, hr, c, hc, rfl⟩

theorem live_of_acyclic {cfg : Cfg D B} {mate : Loc → Option Loc} (L : Linked cfg mate)
    (hbatch : 0 < cfg.maxCompute) (hproto : cfg.doComm = true → cfg.protocol = .tycho)
    (hback : ∀ x y a, cfg.In x → mate x = some y → a < cfg.nAngles →
      cfg.inDir x.rank a x.cell x.face = true → cfg.outDir y.rank a y.cell y.face = true)
    (hac : Acyclic cfg mate) : Live cfg mate (levelOf cfg mate) cfg.allCells := by
  refine ⟨hbatch, hproto, hback, ?_, ?_⟩
  · intro x y a hx hy ha hn
    have hb : Before cfg mate a (y.rank, y.cell) (x.rank, x.cell) := ⟨x, y, hx, hy, hn, rfl, rfl⟩
    have hyin := L.mate_in x y hx hy
    unfold levelOf
    apply Finset.card_lt_card
    rw [Finset.ssubset_iff_of_subset]
    · refine ⟨(y.rank, y.cell), ?_, ?_⟩
      · rw [Finset.mem_filter]; exact ⟨mem_cells hyin.1 hyin.2, .single hb⟩
      · rw [Finset.mem_filter]; exact fun h => hac a ha _ h.2
    · intro t ht
      rw [Finset.mem_filter] at ht ⊢
      exact ⟨ht.1, ht.2.tail hb⟩
  · intro r c a _ _ _
    exact (Finset.card_filter_le _ _).trans (card_cells_le cfg)

end Verif.Traverse
