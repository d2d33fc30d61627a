import Verif.Traverse.Spec
import Verif.Partition.Props
import Mathlib.Data.Fintype.Basic
import Mathlib.Data.Fintype.Card
import Mathlib.Data.Finset.Card
import Mathlib.Tactic.Ring

namespace Verif.Traverse
open Classical

variable {D B : Type}

theorem setAt_same {α : Type} (f : Nat → α) (i : Nat) (v : α) : setAt f i v i = v := by simp [setAt]
theorem setAt_ne {α : Type} (f : Nat → α) {i j : Nat} (v : α) (h : j ≠ i) : setAt f i v j = f j := by
  simp [setAt, h]

theorem dec_pos {n : Nat} (h : 0 < n) : dec n = n - 1 := by
  unfold dec; rw [if_neg (by omega)]

theorem group_lt {cfg : Cfg D B} (hT : 0 < cfg.nThreads) {a : Nat} (ha : a < cfg.nAngles) :
    cfg.group a < cfg.nThreads := by
  obtain ⟨g, hg, h, -⟩ := Verif.Partition.angleGroup_valid cfg.nAngles cfg.nThreads a hT ha
  simp [Cfg.group, h, hg]

/-! ### release touches counters and queues only -/

section release
variable (cfg : Cfg D B) (r g a c : Nat) (st : RankState D B)
theorem release_remaining : (release cfg r g a c st).remaining = st.remaining := by
  unfold release; dsimp only; split <;> rfl
theorem release_data : (release cfg r g a c st).data = st.data := by
  unfold release; dsimp only; split <;> rfl
theorem release_sendBuf : (release cfg r g a c st).sendBuf = st.sendBuf := by
  unfold release; dsimp only; split <;> rfl
theorem release_dark : (release cfg r g a c st).dark = st.dark := by
  unfold release; dsimp only; split <;> rfl
theorem release_phase : (release cfg r g a c st).phase = st.phase := by
  unfold release; dsimp only; split <;> rfl
theorem release_round : (release cfg r g a c st).round = st.round := by
  unfold release; dsimp only; split <;> rfl
theorem release_sent : (release cfg r g a c st).sent = st.sent := by
  unfold release; dsimp only; split <;> rfl
theorem release_recvd : (release cfg r g a c st).recvd = st.recvd := by
  unfold release; dsimp only; split <;> rfl
end release

/-- Dependencies of `(c, a)` not yet met. -/
noncomputable def open_ (cfg : Cfg D B) (r : Nat) (arr : Nat → Nat → Face → Prop) (c a : Nat) :
    Finset Face := Finset.univ.filter fun f => cfg.counts r a c f = true ∧ ¬ arr c a f

/-- Queue entries of a task. -/
def qcount (q : List Tuple) (c a : Nat) : Nat := q.countP fun t => t.cell = c ∧ t.angle = a

/-- Counters and queues of one rank agree with the tasks done and the dependencies met. -/
structure RI (cfg : Cfg D B) (r : Nat) (numDeps : Nat → Nat → Nat) (queue : Nat → List Tuple)
    (done : Nat → Nat → Prop) (arr : Nat → Nat → Face → Prop) : Prop where
  deps : ∀ c < (cfg.mesh r).nCells, ∀ a < cfg.nAngles, numDeps a c = (open_ cfg r arr c a).card
  done_open : ∀ c < (cfg.mesh r).nCells, ∀ a < cfg.nAngles, done c a → open_ cfg r arr c a = ∅
  count : ∀ c < (cfg.mesh r).nCells, ∀ a < cfg.nAngles,
    qcount (queue (cfg.group a)) c a = if open_ cfg r arr c a = ∅ ∧ ¬ done c a then 1 else 0
  range : ∀ g, ∀ t ∈ queue g, t.cell < (cfg.mesh r).nCells ∧ t.angle < cfg.nAngles ∧
    cfg.group t.angle = g

theorem open_congr {cfg : Cfg D B} {r : Nat} {arr arr' : Nat → Nat → Face → Prop} {c a : Nat}
    (h : ∀ f, cfg.counts r a c f = true → (arr c a f ↔ arr' c a f)) :
    open_ cfg r arr c a = open_ cfg r arr' c a := by
  ext f
  simp only [open_, Finset.mem_filter, Finset.mem_univ, true_and]
  constructor
  · rintro ⟨h1, h2⟩; exact ⟨h1, fun h3 => h2 ((h f h1).2 h3)⟩
  · rintro ⟨h1, h2⟩; exact ⟨h1, fun h3 => h2 ((h f h1).1 h3)⟩

theorem RI.congr {cfg : Cfg D B} {r : Nat} {nd : Nat → Nat → Nat} {q : Nat → List Tuple}
    {done done' : Nat → Nat → Prop} {arr arr' : Nat → Nat → Face → Prop}
    (h : RI cfg r nd q done arr)
    (hd : ∀ c < (cfg.mesh r).nCells, ∀ a < cfg.nAngles, (done c a ↔ done' c a))
    (ha : ∀ c < (cfg.mesh r).nCells, ∀ a < cfg.nAngles, ∀ f, cfg.counts r a c f = true →
      (arr c a f ↔ arr' c a f)) : RI cfg r nd q done' arr' := by
  have ho : ∀ c < (cfg.mesh r).nCells, ∀ a < cfg.nAngles,
      open_ cfg r arr c a = open_ cfg r arr' c a := fun c hc a ha' => open_congr (ha c hc a ha')
  refine ⟨fun c hc a ha' => ?_, fun c hc a ha' hdn => ?_, fun c hc a ha' => ?_, h.range⟩
  · rw [h.deps c hc a ha', ho c hc a ha']
  · rw [← ho c hc a ha']; exact h.done_open c hc a ha' ((hd c hc a ha').2 hdn)
  · rw [h.count c hc a ha', ho c hc a ha']
    simp only [hd c hc a ha']

theorem open_release {cfg : Cfg D B} {r : Nat} {arr : Nat → Nat → Face → Prop} {c a : Nat} {f : Face} :
    open_ cfg r (fun c' a' f' => arr c' a' f' ∨ (c' = c ∧ a' = a ∧ f' = f)) c a =
      (open_ cfg r arr c a).erase f := by
  ext f'
  simp only [open_, Finset.mem_filter, Finset.mem_univ, true_and, Finset.mem_erase]
  tauto

theorem open_release_other {cfg : Cfg D B} {r : Nat} {arr : Nat → Nat → Face → Prop}
    {c a c' a' : Nat} {f : Face} (h : ¬ (c' = c ∧ a' = a)) :
    open_ cfg r (fun c' a' f' => arr c' a' f' ∨ (c' = c ∧ a' = a ∧ f' = f)) c' a' =
      open_ cfg r arr c' a' := by
  ext f'
  simp only [open_, Finset.mem_filter, Finset.mem_univ, true_and]
  tauto

/-- Meeting one more dependency. -/
theorem RI.release {cfg : Cfg D B} {r : Nat} {st : RankState D B}
    {done : Nat → Nat → Prop} {arr : Nat → Nat → Face → Prop}
    (h : RI cfg r st.numDeps st.queue done arr) {c a : Nat} {f : Face}
    (hc : c < (cfg.mesh r).nCells) (ha : a < cfg.nAngles) (hcount : cfg.counts r a c f = true)
    (harr : ¬ arr c a f) :
    RI cfg r (release cfg r (cfg.group a) a c st).numDeps (release cfg r (cfg.group a) a c st).queue
      done (fun c' a' f' => arr c' a' f' ∨ (c' = c ∧ a' = a ∧ f' = f)) := by
  have hmem : f ∈ open_ cfg r arr c a := by simp [open_, hcount, harr]
  have hcard : 0 < (open_ cfg r arr c a).card := Finset.card_pos.2 ⟨f, hmem⟩
  have hle : (open_ cfg r arr c a).card ≤ 4 := by
    have := Finset.card_le_univ (open_ cfg r arr c a)
    simpa using this
  have hn : dec (st.numDeps a c) = ((open_ cfg r arr c a).erase f).card := by
    rw [h.deps c hc a ha, dec_pos hcard, Finset.card_erase_of_mem hmem]
  have hnd : (Traverse.release cfg r (cfg.group a) a c st).numDeps =
      setAt st.numDeps a (setAt (st.numDeps a) c ((open_ cfg r arr c a).erase f).card) := by
    unfold Traverse.release; dsimp only; rw [hn]; split <;> rfl
  have hq : (Traverse.release cfg r (cfg.group a) a c st).queue =
      if (open_ cfg r arr c a).erase f = ∅ then setAt st.queue (cfg.group a)
        (st.queue (cfg.group a) ++ [⟨c, a, (cfg.data r).getPriority c a st.data⟩]) else st.queue := by
    unfold Traverse.release; dsimp only; rw [hn]
    by_cases he : (open_ cfg r arr c a).erase f = ∅
    · simp [he]
    · rw [if_neg (by simpa using he), if_neg he]
  have hnot : ¬ done c a := by
    intro hdn
    rw [h.done_open c hc a ha hdn] at hmem
    simp at hmem
  rw [hnd, hq]
  refine ⟨fun c' hc' a' ha' => ?_, fun c' hc' a' ha' hdn => ?_, fun c' hc' a' ha' => ?_, ?_⟩
  · by_cases hk : c' = c ∧ a' = a
    · obtain ⟨rfl, rfl⟩ := hk
      rw [open_release, setAt_same, setAt_same]
    · rw [open_release_other hk, ← h.deps c' hc' a' ha']
      by_cases h1 : a' = a
      · subst h1
        rw [setAt_same, setAt_ne _ _ (fun h2 => hk ⟨h2, rfl⟩)]
      · rw [setAt_ne _ _ h1]
  · have hk : ¬ (c' = c ∧ a' = a) := by rintro ⟨rfl, rfl⟩; exact hnot hdn
    rw [open_release_other hk]
    exact h.done_open c' hc' a' ha' hdn
  · have hold := h.count c' hc' a' ha'
    by_cases hk : c' = c ∧ a' = a
    · obtain ⟨rfl, rfl⟩ := hk
      rw [open_release]
      have h0 : qcount (st.queue (cfg.group a')) c' a' = 0 := by
        rw [hold, if_neg]; rintro ⟨h1, -⟩; rw [h1] at hmem; simp at hmem
      by_cases he : (open_ cfg r arr c' a').erase f = ∅
      · rw [if_pos he, if_pos ⟨he, hnot⟩, setAt_same]
        unfold qcount at h0 ⊢
        rw [List.countP_append, h0]; simp
      · rw [if_neg he, if_neg (fun h1 => he h1.1), h0]
    · rw [open_release_other hk, ← hold]
      split
      · by_cases hg : cfg.group a' = cfg.group a
        · rw [hg, setAt_same]
          unfold qcount
          rw [List.countP_append]
          have : ¬ (c = c' ∧ a = a') := fun h1 => hk ⟨h1.1.symm, h1.2.symm⟩
          simp [this]
        · rw [setAt_ne _ _ hg]
      · rfl
  · intro g t ht
    split at ht
    · by_cases hg : g = cfg.group a
      · subst hg
        rw [setAt_same, List.mem_append] at ht
        rcases ht with ht | ht
        · exact h.range _ t ht
        · simp at ht; subst ht; exact ⟨hc, ha, rfl⟩
      · rw [setAt_ne _ _ hg] at ht; exact h.range _ t ht
    · exact h.range _ t ht

/-- Taking a task from the queue. -/
theorem RI.pop {cfg : Cfg D B} {r : Nat} {nd : Nat → Nat → Nat} {queue : Nat → List Tuple}
    {done : Nat → Nat → Prop} {arr : Nat → Nat → Face → Prop}
    (h : RI cfg r nd queue done arr) {g : Nat} {l1 l2 : List Tuple} {t : Tuple}
    (hq : queue g = l1 ++ t :: l2) :
    RI cfg r nd (setAt queue g (l1 ++ l2)) (fun c a => done c a ∨ (c = t.cell ∧ a = t.angle)) arr ∧
      ¬ done t.cell t.angle ∧ open_ cfg r arr t.cell t.angle = ∅ ∧
      t.cell < (cfg.mesh r).nCells ∧ t.angle < cfg.nAngles ∧ cfg.group t.angle = g := by
  have ht : t ∈ queue g := by rw [hq]; simp
  obtain ⟨hc, ha, hg⟩ := h.range g t ht
  have hcnt := h.count t.cell hc t.angle ha
  have hex : open_ cfg r arr t.cell t.angle = ∅ ∧ ¬ done t.cell t.angle := by
    by_contra hno
    rw [if_neg hno, hg, hq] at hcnt
    unfold qcount at hcnt
    rw [List.countP_append, List.countP_cons] at hcnt
    simp at hcnt
  refine ⟨⟨h.deps, ?_, ?_, ?_⟩, hex.2, hex.1, hc, ha, hg⟩
  · rintro c hc' a ha' (hdn | ⟨rfl, rfl⟩)
    · exact h.done_open c hc' a ha' hdn
    · exact hex.1
  · intro c hc' a ha'
    have hold := h.count c hc' a ha'
    by_cases hk : c = t.cell ∧ a = t.angle
    · obtain ⟨rfl, rfl⟩ := hk
      rw [if_pos hex, hg, hq] at hold
      rw [hg, setAt_same, if_neg (by simp)]
      unfold qcount at hold ⊢
      rw [List.countP_append, List.countP_cons] at hold
      rw [List.countP_append]
      rw [if_pos (by simp)] at hold
      omega
    · have : ((done c a ∨ c = t.cell ∧ a = t.angle) ↔ done c a) := by tauto
      simp only [this]
      rw [← hold]
      by_cases hga : cfg.group a = g
      · rw [hga, setAt_same, hq]
        unfold qcount
        rw [List.countP_append, List.countP_append, List.countP_cons]
        have : ¬ (t.cell = c ∧ t.angle = a) := fun h1 => hk ⟨h1.1.symm, h1.2.symm⟩
        simp [this]
      · rw [setAt_ne _ _ hga]
  · intro g' t' ht'
    by_cases hg' : g' = g
    · subst hg'
      rw [setAt_same] at ht'
      exact h.range _ t' (by rw [hq]; simp at ht' ⊢; tauto)
    · rw [setAt_ne _ _ hg'] at ht'; exact h.range _ t' ht'

/-- The counters and queues at the start. -/
theorem RI.start (cfg : Cfg D B) (r : Nat) :
    RI cfg r (initRank cfg r).numDeps (initRank cfg r).queue (fun _ _ => False)
      (fun _ _ _ => False) := by
  have hdeps : ∀ c a, cfg.initNumDeps r a c = (open_ cfg r (fun _ _ _ => False) c a).card := by
    intro c a
    unfold Cfg.initNumDeps open_
    rw [← List.toFinset_card_of_nodup ((List.nodup_finRange 4).filter _)]
    congr 1
    ext f
    simp
  refine ⟨fun c _ a _ => hdeps c a, fun _ _ _ _ h => h.elim, fun c hc a ha => ?_, ?_⟩
  · simp only [initRank]
    unfold qcount
    rw [List.countP_flatMap]
    have : ∀ c' ∈ List.range (cfg.mesh r).nCells,
        List.countP (fun t : Tuple => decide (t.cell = c ∧ t.angle = a))
        (((List.range cfg.nAngles).filter fun a' => cfg.initNumDeps r a' c' = 0 ∧
          cfg.group a' = cfg.group a).map
          fun a => (⟨c', a, (cfg.data r).getPriority c' a (cfg.init r)⟩ : Tuple)) =
        if c' = c then (if cfg.initNumDeps r a c = 0 then 1 else 0) else 0 := by
      intro c' _
      rw [List.countP_map]
      by_cases hcc : c' = c
      · subst hcc
        have : ((fun t : Tuple => decide (t.cell = c' ∧ t.angle = a)) ∘
            fun a => (⟨c', a, (cfg.data r).getPriority c' a (cfg.init r)⟩ : Tuple)) =
            fun x => x == a := by
          funext x; simp [Function.comp]
          rfl
        rw [this, if_pos rfl]
        change List.count a _ = _
        by_cases h0 : cfg.initNumDeps r a c' = 0
        · rw [if_pos h0, List.count_filter (by simp [h0]), List.count_eq_one_of_mem List.nodup_range (by simpa using ha)]
        · rw [if_neg h0, List.count_eq_zero]
          simp [h0]
      · rw [if_neg hcc, List.countP_eq_zero]
        intro x _
        simp [hcc]
    have hm : List.map (List.countP (fun t : Tuple => decide (t.cell = c ∧ t.angle = a)) ∘
        fun c => ((List.range cfg.nAngles).filter fun a' => cfg.initNumDeps r a' c = 0 ∧
          cfg.group a' = cfg.group a).map
          fun a => (⟨c, a, (cfg.data r).getPriority c a (cfg.init r)⟩ : Tuple))
        (List.range (cfg.mesh r).nCells) = (List.range (cfg.mesh r).nCells).map
          fun c' => if c' = c then (if cfg.initNumDeps r a c = 0 then 1 else 0) else 0 :=
      List.map_congr_left this
    rw [hm, Verif.Partition.sum_ite_range, if_pos hc, hdeps]
    simp
  · intro g t ht
    simp only [initRank, List.mem_flatMap, List.mem_map, List.mem_filter, List.mem_range] at ht
    obtain ⟨c, hc, a, ⟨ha, hx⟩, rfl⟩ := ht
    simp at hx
    exact ⟨hc, ha, hx.2⟩

end Verif.Traverse
