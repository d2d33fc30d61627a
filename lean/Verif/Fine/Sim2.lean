import Verif.Fine.Sim

/-! # The steps of a thread against whole steps -/

set_option linter.unusedSectionVars false
set_option linter.unusedVariables false

namespace Verif.Fine
open Verif.Traverse Verif.Schedule

variable {D B E X : Type} {S : Core D B} {Z : Slices S E X} {angles : Nat → List Nat} {w : State D B E X} {s : SweepState S}

/-- Threads of the rank within `recv`. -/
def Pc.receiving : Pc B E X → Prop
  | .gotSizes _ _ | .gotSides _ _ _ => True
  | _ => False

theorem Rel.mayRecv (R : Rel Z angles w s) {r g : Nat} (h : (w.rank r).mayRecv S r g) : (s.rank r).mayRecv r g := by
  unfold Rank.mayRecv at h
  unfold Vars.mayRecv
  split at h <;> rename_i hv <;> rw [hv]
  · refine ⟨fun g' hg' => ?_, fun g' hg' => ?_⟩
    · rw [← R.place]; exact (h.1 g' hg').2
    · have := (h.2 g' hg').2
      rw [R.place] at this
      exact this
  · trivial

theorem Rel.maySend (R : Rel Z angles w s) {r g : Nat} (hg : g < S.nAngleGroups) (h : (w.rank r).maySend S r g) :
    (s.rank r).maySend r g := by
  unfold Rank.maySend at h
  unfold Vars.maySend
  split at h <;> rename_i hv <;> rw [hv]
  · refine ⟨fun g' hg' i hi => ?_, fun g' hg' => ?_⟩
    · rw [← R.place] at hi ⊢; exact (h.1 g' hg').2 i hi
    · rw [← R.place]; exact h.2 g' hg'
  · have := R.pcs r g hg
    unfold PcOk at this
    rw [h] at this
    exact this.2.2.1

/-- In the first variant, while one thread is within `recv` no other thread moves. -/
theorem Rel.alone (R : Rel Z angles w s) {r g g' : Nat} (hg : g < S.nAngleGroups) (hg' : g' < S.nAngleGroups) (hne : g ≠ g')
    (h : ((w.rank r).pc g').receiving) (hv : S.variant = .tycho1) :
    (w.rank r).pc g = .ops [] ∧ ∀ i, ((s.rank r).place g).phase ≠ .compute i := by
  have := R.pcs r g' hg'
  unfold PcOk at this
  have key : (s.rank r).mayRecv r g' ∧ (S.variant = .tycho1 → ∀ g < S.nAngleGroups, g ≠ g' → (w.rank r).pc g = .ops []) := by
    cases hp : (w.rank r).pc g' with
    | ops l => rw [hp] at h; exact h.elim
    | granted => rw [hp] at h; exact h.elim
    | gotSizes q n => rw [hp] at this; exact ⟨this.2.2.2.2.1, this.2.2.2.2.2⟩
    | gotSides q n l => rw [hp] at this; exact ⟨this.2.2.2.2.1, this.2.2.2.2.2⟩
  refine ⟨key.2 hv g hg hne, ?_⟩
  have h1 := key.1
  unfold Vars.mayRecv at h1
  rw [hv] at h1
  exact h1.1 g hg

/-- The program counters of the other threads still fit after a step of a thread. -/
theorem Rel.pcs_other (R : Rel Z angles w s) {r g : Nat} {p : Pc B E X} {s' : SweepState S}
    (hr' : ∀ r', r' ≠ r → s'.rank r' = s.rank r') (hpl : ∀ g' < S.nAngleGroups, g' ≠ g → (s'.rank r).place g' = (s.rank r).place g')
    (ht : S.variant = .tycho2 → ∀ g' < S.nAngleGroups, g' ≠ g → (w.rank r).pc g' = .granted → (s'.rank r).turn = (s.rank r).turn)
    (hrecv : S.variant = .tycho1 → ∀ g' < S.nAngleGroups, g' ≠ g → ¬ ((w.rank r).pc g').receiving)
    (hself : PcOk s' r g (setAt (w.rank r).pc g p)) :
    ∀ r', ∀ g' < S.nAngleGroups, PcOk s' r' g' (if r' = r then setAt (w.rank r).pc g p else (w.rank r').pc) := by
  intro r' g' hg'
  by_cases h : r' = r
  · subst h
    rw [if_pos rfl]
    by_cases hgg : g' = g
    · subst hgg; exact hself
    · have h1 := R.pcs r' g' hg'
      unfold PcOk at h1 ⊢
      rw [Traverse.setAt_ne _ _ hgg]
      have h2 := hpl g' hg' hgg
      cases hp : (w.rank r').pc g' with
      | ops l => trivial
      | granted =>
        rw [hp] at h1
        dsimp only at h1 ⊢
        rw [h2, ht h1.1 g' hg' hgg hp]; exact h1
      | gotSizes q n =>
        rw [hp] at h1
        dsimp only at h1 ⊢
        have hv : S.variant = .tycho2 := by
          cases hv : S.variant with
          | tycho1 => exact absurd (by rw [hp]; trivial) (hrecv hv g' hg' hgg)
          | tycho2 => rfl
        rw [h2]
        exact ⟨h1.1, h1.2.1, h1.2.2.1, h1.2.2.2.1, by unfold Vars.mayRecv; rw [hv]; trivial, fun h => (by rw [hv] at h; cases h)⟩
      | gotSides q n l =>
        rw [hp] at h1
        dsimp only at h1 ⊢
        have hv : S.variant = .tycho2 := by
          cases hv : S.variant with
          | tycho1 => exact absurd (by rw [hp]; trivial) (hrecv hv g' hg' hgg)
          | tycho2 => rfl
        rw [h2]
        exact ⟨h1.1, h1.2.1, h1.2.2.1, h1.2.2.2.1, by unfold Vars.mayRecv; rw [hv]; trivial, fun h => (by rw [hv] at h; cases h)⟩
  · rw [if_neg h]
    have h1 := R.pcs r' g' hg'
    unfold PcOk at h1 ⊢
    rw [hr' r' h]
    exact h1

theorem Pc.left_idle {v : Rank D B E X} {g : Nat} (h : v.idle g) : (v.pc g).left = [] := by
  rw [Rank.idle] at h; rw [h]; rfl

theorem get_setAt2 {α : Type} (f : Nat → Nat → Nat → α) (i j k : Nat) (v : α) (i' j' k' : Nat) :
    setAt f i (setAt (f i) j (setAt (f i j) k v)) i' j' k' =
      if i' = i ∧ j' = j ∧ k' = k then v else f i' j' k' := by
  by_cases h1 : i' = i
  · subst h1
    by_cases h2 : j' = j
    · subst h2
      by_cases h3 : k' = k <;> simp [setAt, h3]
    · simp [setAt, h2]
  · simp [setAt, h1]

theorem full_empty (ms : List (List (Packet B))) {m : List (Packet B)} (h : m.length = 0) : full (ms ++ [m]) = full ms := by
  unfold full
  rw [List.filter_append, List.filter_cons_of_neg (by simpa using h)]; simp

theorem full_more (ms : List (List (Packet B))) {m : List (Packet B)} (h : m.length ≠ 0) : full (ms ++ [m]) = full ms ++ [m] := by
  unfold full
  rw [List.filter_append, List.filter_cons_of_pos (by simpa using h)]; simp

theorem full_cons_empty (ms : List (List (Packet B))) {m : List (Packet B)} (h : m.length = 0) : full (m :: ms) = full ms := by
  unfold full
  rw [List.filter_cons_of_neg (by simpa using h)]

theorem full_cons_more (ms : List (List (Packet B))) {m : List (Packet B)} (h : m.length ≠ 0) : full (m :: ms) = m :: full ms := by
  unfold full
  rw [List.filter_cons_of_pos (by simpa using h)]

section
variable (hdis : ∀ g < S.nAngleGroups, ∀ g' < S.nAngleGroups, ∀ a ∈ angles g, a ∈ angles g' → g = g')
include hdis

theorem Rel.work (R : Rel Z angles w s) {r g k i : Nat} {t : Work} (hg : g < S.nAngleGroups) (hi : (w.rank r).idle g)
    (hp : (w.rank r).place g = ⟨k, .compute i⟩) (ha : t.angle ∈ angles g) :
    Rel Z angles { w.setRank r ((w.rank r).goTo g (.ops (workOps Z r t)) ⟨k, .compute (i + 1)⟩) with
        log := w.log ++ [.upd r t.cell t.angle k] } (s.work r g k i t) := by
  have hid := Pc.left_idle hi
  have hfin := fin_idle (Z := Z) hid
  have hps : (s.rank r).place g = ⟨k, .compute i⟩ := by rw [← R.place]; exact hp
  -- the pass on the data of the whole steps
  have hv : (w.fin Z r g).Same (· ∈ angles g) { w.fin Z r g with e := Z.get (s.rank r).data } :=
    ⟨fun a ha => (R.data r g hg a ha).symm, rfl, rfl, rfl, rfl, rfl, rfl⟩
  have hon : ∀ o ∈ workOps Z r t, o.On (· ∈ angles g) := workOps_on ha
  have h1 := run_same (read := Z.read) (workOps Z r t) hon hv
  have h2 := run_pass (Z := Z) r t (s.rank r).data { w.fin Z r g with e := Z.get (s.rank r).data } rfl
  have hrank : ∀ r', r' ≠ r → (s.work r g k i t).rank r' = s.rank r' := fun r' h => by
    simp [SweepState.work, SweepState.setRank, setAt, h]
  have hself : (s.work r g k i t).rank r = { (s.rank r).setPlace g ⟨k, .compute (i + 1)⟩ with
      data := S.compute r t (s.rank r).data
      buf := setAt (s.rank r).buf g fun q => (s.rank r).buf g q ++ S.packets r t (S.compute r t (s.rank r).data) q } := by
    show setAt s.rank r _ r = _
    rw [setAt_same]
  refine R.make (s' := s.work r g k i t) hg hid hrank ?_ ?_ ?_ ?_ ?_ ?_ hdis ?_ ?_ ?_ hon ?_ ?_
  · rw [hself, R.place]; rfl
  · rw [hself, R.turn]; rfl
  · rw [hself, R.entered]; rfl
  · rw [R.log]; rfl
  · intro g' hgg; rw [hself]; exact Traverse.setAt_ne _ _ hgg
  · intro a ha'
    rw [hself]
    show Z.get (S.compute r t (s.rank r).data) a = _
    rw [Z.parts_eq r t.cell t.angle _ Z.scratch]
    refine Z.get_set_ne _ _ _ _ ?_
    rintro rfl
    exact ha' ha
  · intro a ha'
    simp only [Pc.left]
    rw [h1.e a ha', h2.e, hself]
  · intro q
    simp only [Pc.left]
    rw [h1.sides, h2.sides, hself]
    show (w.fin Z r g).sides q ++ _ = keys (setAt (s.rank r).buf g _ g q)
    rw [setAt_same, keys_append, R.sides r g hg]
  · intro q
    simp only [Pc.left]
    rw [h1.psi, h2.psi, hself]
    show (w.fin Z r g).psi q ++ _ = blocks (setAt (s.rank r).buf g _ g q)
    rw [setAt_same, blocks_append, R.psi r g hg]
  · refine R.pcs_other hrank ?_ ?_ ?_ ?_
    · intro g' _ hgg; rw [hself]; simp [Vars.setPlace, setAt, hgg]
    · intro _ _ _ _ _; rw [hself]; rfl
    · intro hv g' hg' hgg hrec
      exact (R.alone hg hg' (Ne.symm hgg) hrec hv).2 i (by rw [hps])
    · unfold PcOk; rw [setAt_same]; trivial
  · intro p q g' hg'
    have h0 := R.wired p q g' hg'
    have hheld : (if q = r ∧ g' = g then Pc.ops (workOps Z r t) else (w.rank q).pc g').held0 p = ((w.rank q).pc g').held0 p ∧
        (if q = r ∧ g' = g then Pc.ops (workOps Z r t) else (w.rank q).pc g').held1 p = ((w.rank q).pc g').held1 p := by
      split
      · rename_i h; obtain ⟨rfl, rfl⟩ := h
        rw [Rank.idle] at hi
        rw [hi]; exact ⟨rfl, rfl⟩
      · exact ⟨rfl, rfl⟩
    have hc : (if p = r ∧ g' = g then run Z.read (Pc.ops (workOps Z r t)).left (w.fin Z r g) else w.fin Z p g').c0 =
          (w.fin Z p g').c0 ∧
        (if p = r ∧ g' = g then run Z.read (Pc.ops (workOps Z r t)).left (w.fin Z r g) else w.fin Z p g').c1 =
          (w.fin Z p g').c1 ∧
        (if p = r ∧ g' = g then run Z.read (Pc.ops (workOps Z r t)).left (w.fin Z r g) else w.fin Z p g').c2 =
          (w.fin Z p g').c2 := by
      split
      · rename_i h; obtain ⟨rfl, rfl⟩ := h
        exact ⟨h1.c0.trans h2.c0, h1.c1.trans h2.c1, h1.c2.trans h2.c2⟩
      · exact ⟨rfl, rfl, rfl⟩
    rw [hheld.1, hheld.2, hc.1, hc.2.1, hc.2.2]
    exact h0

/-- A step that changes control flow only. -/
theorem Rel.control (R : Rel Z angles w s) {r g : Nat} {p : Pc B E X} {pl : Nat → Place} {t e : Nat} {s' : SweepState S}
    (hg : g < S.nAngleGroups) (hid : ((w.rank r).pc g).left = []) (hleft : p.left = [])
    (hh0 : ∀ p', p.held0 p' = ((w.rank r).pc g).held0 p') (hh1 : ∀ p', p.held1 p' = ((w.rank r).pc g).held1 p')
    (hrank : ∀ r', r' ≠ r → s'.rank r' = s.rank r')
    (hself : s'.rank r = { s.rank r with place := pl, turn := t, entered := e }) (hlog : s'.log = s.log)
    (hchan : s'.chan = s.chan)
    (hpc : ∀ r', ∀ g' < S.nAngleGroups, PcOk s' r' g' (if r' = r then setAt (w.rank r).pc g p else (w.rank r').pc)) :
    Rel Z angles (⟨setAt w.rank r { w.rank r with
      pc := setAt (w.rank r).pc g p, place := pl, turn := t, entered := e }, w.c0, w.c1, w.c2, w.log⟩ : State D B E X) s' := by
  refine R.make (s' := s') hg hid hrank ?_ ?_ ?_ ?_ ?_ ?_ hdis ?_ ?_ ?_ ?_ hpc ?_
  · rw [hself]
  · rw [hself]
  · rw [hself]
  · rw [hlog, R.log]
  · intro g' _; rw [hself]
  · intro a _; rw [hself]
  · intro a ha; rw [hself, hleft]; exact R.data r g hg a ha
  · intro q; rw [hself, hleft]; exact R.sides r g hg q
  · intro q; rw [hself, hleft]; exact R.psi r g hg q
  · rw [hleft]; intro o ho; cases ho
  · intro p' q g' hg'
    have h0 := R.wired p' q g' hg'
    have hheld : (if q = r ∧ g' = g then p else (w.rank q).pc g').held0 p' = ((w.rank q).pc g').held0 p' ∧
        (if q = r ∧ g' = g then p else (w.rank q).pc g').held1 p' = ((w.rank q).pc g').held1 p' := by
      split
      · rename_i h; obtain ⟨rfl, rfl⟩ := h
        exact ⟨hh0 p', hh1 p'⟩
      · exact ⟨rfl, rfl⟩
    have hc : (if p' = r ∧ g' = g then run Z.read p.left (w.fin Z r g) else w.fin Z p' g') = w.fin Z p' g' := by
      split
      · rename_i h; obtain ⟨rfl, rfl⟩ := h
        rw [hleft]; rfl
      · rfl
    rw [hheld.1, hheld.2, hc, hchan]
    exact h0

theorem Rel.send (R : Rel Z angles w s) {r g k i : Nat} (hg : g < S.nAngleGroups) (hnd : (S.sendAt g r k).Nodup)
    (hp : (w.rank r).place g = ⟨k, .compute i⟩) (hm : (w.rank r).maySend S r g) :
    Rel Z angles (w.setRank r ((w.rank r).goTo g (.ops (sendOps (S.sendAt g r k))) ⟨k, .comm 0⟩)) (s.send r g k) := by
  have hpcc : (w.rank r).pc g = .ops [] ∨ (w.rank r).pc g = .granted := by
    unfold Rank.maySend at hm
    split at hm
    · exact Or.inl (hm.1 g hg).1
    · exact Or.inr hm
  have hid : ((w.rank r).pc g).left = [] := by rcases hpcc with h | h <;> rw [h] <;> rfl
  have hheld0 : ∀ p, ((w.rank r).pc g).held0 p = [] := by intro p; rcases hpcc with h | h <;> rw [h] <;> rfl
  have hheld1 : ∀ p, ((w.rank r).pc g).held1 p = [] := by intro p; rcases hpcc with h | h <;> rw [h] <;> rfl
  have hps : (s.rank r).place g = ⟨k, .compute i⟩ := by rw [← R.place]; exact hp
  have hfin := fin_idle (Z := Z) hid
  have h2 := run_send (read := Z.read) (S.sendAt g r k) hnd (w.fin Z r g)
  have hrank : ∀ r', r' ≠ r → (s.send r g k).rank r' = s.rank r' := fun r' h => by
    simp [SweepState.send, SweepState.setRank, setAt, h]
  have hself : (s.send r g k).rank r = { (s.rank r).setPlace g ⟨k, .comm 0⟩ with
      buf := setAt (s.rank r).buf g fun q => if q ∈ S.sendAt g r k then [] else (s.rank r).buf g q } := by
    show setAt s.rank r _ r = _
    rw [setAt_same]
  refine R.make (s' := s.send r g k) hg hid hrank ?_ ?_ ?_ ?_ ?_ ?_ hdis ?_ ?_ ?_ sendOps_on ?_ ?_
  · rw [hself, R.place]; rfl
  · rw [hself, R.turn]; rfl
  · rw [hself, R.entered]; rfl
  · rw [R.log]; rfl
  · intro g' hgg; rw [hself]; exact Traverse.setAt_ne _ _ hgg
  · intro a ha'; rw [hself]; rfl
  · intro a ha'
    rw [show (run Z.read (Pc.ops (sendOps (S.sendAt g r k))).left (w.fin Z r g)).e = _ from h2.e, hself]
    exact R.data r g hg a ha'
  · intro q
    rw [show (run Z.read (Pc.ops (sendOps (S.sendAt g r k))).left (w.fin Z r g)).sides q = _ from h2.sides q, hself]
    simp only [setAt_same]
    split
    · rfl
    · exact R.sides r g hg q
  · intro q
    rw [show (run Z.read (Pc.ops (sendOps (S.sendAt g r k))).left (w.fin Z r g)).psi q = _ from h2.psi q, hself]
    simp only [setAt_same]
    split
    · rfl
    · exact R.psi r g hg q
  · refine R.pcs_other hrank ?_ ?_ ?_ ?_
    · intro g' _ hgg; rw [hself]; simp [Vars.setPlace, setAt, hgg]
    · intro _ _ _ _ _; rw [hself]; rfl
    · intro hv g' hg' hgg hrec
      exact (R.alone hg hg' (Ne.symm hgg) hrec hv).2 i (by rw [hps])
    · unfold PcOk; rw [setAt_same]; trivial
  · intro p q g' hg'
    obtain ⟨a0, a1, a2⟩ := R.wired p q g' hg'
    have hheld : (if q = r ∧ g' = g then Pc.ops (sendOps (S.sendAt g r k)) else (w.rank q).pc g').held0 p = ((w.rank q).pc g').held0 p ∧
        (if q = r ∧ g' = g then Pc.ops (sendOps (S.sendAt g r k)) else (w.rank q).pc g').held1 p = ((w.rank q).pc g').held1 p := by
      split
      · rename_i h; obtain ⟨rfl, rfl⟩ := h
        exact ⟨(hheld0 p).symm, (hheld1 p).symm⟩
      · exact ⟨rfl, rfl⟩
    rw [hheld.1, hheld.2]
    by_cases hpg : p = r ∧ g' = g
    · obtain ⟨rfl, rfl⟩ := hpg
      simp only [and_self, if_true]
      have hch : (s.send p g' k).chan p q g' = s.chan p q g' ++ if q ∈ S.sendAt g' p k then [(s.rank p).buf g' q] else [] := by
        simp only [SweepState.send, setAt_same]
        split
        · rw [setAt_same]
        · simp
      have hsd := R.sides p g' hg' q
      have hps' := R.psi p g' hg' q
      rw [hch]
      show Wired _ _ ((run Z.read (sendOps (S.sendAt g' p k)) (w.fin Z p g')).c0 q) _ _
        ((run Z.read (sendOps (S.sendAt g' p k)) (w.fin Z p g')).c1 q) _
        ((run Z.read (sendOps (S.sendAt g' p k)) (w.fin Z p g')).c2 q) _
      rw [h2.c0, h2.c1, h2.c2, hsd, hps']
      by_cases hq : q ∈ S.sendAt g' p k
      · simp only [hq, if_true, true_and, keys_length, blocks_length]
        by_cases hb : ((s.rank p).buf g' q).length = 0
        · have hf : full (s.chan p q g' ++ [(s.rank p).buf g' q]) = full (s.chan p q g') := full_empty _ hb
          refine ⟨?_, ?_, ?_⟩
          · rw [List.map_append, ← a0]; simp [sizes]
          · rw [hf, ← a1]; simp [hb]
          · rw [hf, ← a2]; simp [hb]
        · have hf : full (s.chan p q g' ++ [(s.rank p).buf g' q]) = full (s.chan p q g') ++ [(s.rank p).buf g' q] :=
            full_more _ hb
          refine ⟨?_, ?_, ?_⟩
          · rw [List.map_append, ← a0]; simp [sizes]
          · rw [hf, List.map_append, ← a1]; simp [hb]
          · rw [hf, List.map_append, ← a2]; simp [hb]
      · simp only [hq, if_false, false_and, List.append_nil]
        exact ⟨a0, a1, a2⟩
    · rw [if_neg hpg]
      have hch : (s.send r g k).chan p q g' = s.chan p q g' := by
        simp only [SweepState.send]
        by_cases h1 : p = r
        · subst h1
          have h2 : g' ≠ g := fun e => hpg ⟨rfl, e⟩
          rw [setAt_same]
          split
          · rw [Traverse.setAt_ne _ _ h2]
          · rfl
        · rw [Traverse.setAt_ne _ _ h1]
      rw [hch]
      exact ⟨a0, a1, a2⟩

end

end Verif.Fine
