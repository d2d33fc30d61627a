import Verif.Fine.Sim2

/-! # Receives, the wait for the turn, and the barrier against whole steps -/

set_option linter.unusedSectionVars false
set_option linter.unusedVariables false

namespace Verif.Fine
open Verif.Traverse Verif.Schedule

variable {D B E X : Type} {S : Core D B} {Z : Slices S E X} {angles : Nat → List Nat} {w : State D B E X} {s : SweepState S}

theorem Rank.mayRecv.idle {v : Rank D B E X} {r g : Nat} (hg : g < S.nAngleGroups) (h : v.mayRecv S r g) : v.idle g := by
  unfold Rank.mayRecv at h
  split at h
  · exact (h.1 g hg).1
  · exact h

theorem Rank.mayRecv.others {v : Rank D B E X} {r g : Nat} (h : v.mayRecv S r g) (hv : S.variant = .tycho1) :
    ∀ g' < S.nAngleGroups, v.pc g' = .ops [] := by
  unfold Rank.mayRecv at h
  rw [hv] at h
  exact fun g' hg' => (h.1 g' hg').1

theorem zip_keys (m : List (Packet B)) : (keys m).zip (blocks m) = m.map fun p => ((p.side, p.angle), p.data) := by
  simp only [keys, blocks, List.zip_map']

theorem setBound_other (r : Nat) {A : Nat → Prop} (m : List (Packet B)) (hm : ∀ p ∈ m, A p.angle) {a : Nat} (ha : ¬ A a) :
    ∀ d : D, Z.get (S.setBoundData r m d) a = Z.get d a := by
  induction m with
  | nil => exact fun _ => rfl
  | cons p m ih =>
    intro d
    have : S.setBoundData r (p :: m) d =
      S.setBoundData r m ((S.cfg.data r).setSideData ((S.cfg.mesh r).glSide p.side) p.angle p.data d) := rfl
    rw [this, ih (fun p hp => hm p (by simp [hp])), Z.store_eq r _ _ _ _ Z.scratch]
    refine Z.get_set_ne _ _ _ _ ?_
    rintro rfl
    exact ha (hm p (by simp))

theorem recv_chan (s : SweepState S) (r g k j q : Nat) (m : List (Packet B)) (ms : List (List (Packet B))) (p' q' g' : Nat) :
    (s.recv r g k j q m ms).chan p' q' g' = if p' = q ∧ q' = r ∧ g' = g then ms else s.chan p' q' g' := by
  show setAt s.chan q (setAt (s.chan q) r (setAt (s.chan q r) g ms)) p' q' g' = _
  rw [get_setAt2]

theorem recv_rank (s : SweepState S) (r g k j q : Nat) (m : List (Packet B)) (ms : List (List (Packet B))) :
    (s.recv r g k j q m ms).rank r =
      { (s.rank r).setPlace g ⟨k, .comm (j + 1)⟩ with data := S.setBoundData r m (s.rank r).data } := by
  show setAt s.rank r _ r = _
  rw [setAt_same]

theorem recv_other (s : SweepState S) (r g k j q : Nat) (m : List (Packet B)) (ms : List (List (Packet B))) (r' : Nat) (h : r' ≠ r) :
    (s.recv r g k j q m ms).rank r' = s.rank r' := Traverse.setAt_ne _ _ h

section
variable (hdis : ∀ g < S.nAngleGroups, ∀ g' < S.nAngleGroups, ∀ a ∈ angles g, a ∈ angles g' → g = g')
include hdis

theorem Rel.recvNone (R : Rel Z angles w s) {r g k j q n : Nat} {ns : List (Nat × Nat)} (hg : g < S.nAngleGroups)
    (hp : (w.rank r).place g = ⟨k, .comm j⟩) (hm : (w.rank r).mayRecv S r g) (hc : w.c0 q g r = (0, n) :: ns) :
    ∃ ms, s.chan q r g = [] :: ms ∧
      Rel Z angles { w.setRank r ((w.rank r).goTo g (.ops []) ⟨k, .comm (j + 1)⟩) with
        c0 := setAt w.c0 q (setAt (w.c0 q) g (setAt (w.c0 q g) r ns)) } (s.recv r g k j q [] ms) := by
  have hi := Rank.mayRecv.idle hg hm
  have hid := Pc.left_idle hi
  obtain ⟨a0, a1, a2⟩ := R.wired q r g hg
  have hi' := hi
  rw [Rank.idle] at hi'
  rw [hi', hc] at a0
  rw [hi'] at a1
  obtain ⟨ms, hms⟩ : ∃ ms, s.chan q r g = [] :: ms := by
    cases hch : s.chan q r g with
    | nil => rw [hch] at a0; cases a0
    | cons m ms =>
      rw [hch] at a0
      have : (0, n) = sizes m := (List.cons.inj a0).1
      have h0 : m.length = 0 := (congrArg Prod.fst this).symm
      rw [List.length_eq_zero_iff.1 h0]
      exact ⟨ms, rfl⟩
  refine ⟨ms, hms, ?_⟩
  rw [hms] at a0 a1 a2
  have hself := recv_rank s r g k j q [] ms
  refine R.make (s' := s.recv r g k j q [] ms) hg hid (recv_other s r g k j q [] ms) ?_ ?_ ?_ ?_ ?_ ?_ hdis ?_ ?_ ?_ ?_ ?_ ?_
  · rw [hself, R.place]; rfl
  · rw [hself, R.turn]; rfl
  · rw [hself, R.entered]; rfl
  · show s.log ++ [] = w.log
    rw [R.log, List.append_nil]
  · intro g' hgg; rw [hself]; rfl
  · intro a ha'; rw [hself]; rfl
  · intro a ha'; rw [hself]; exact R.data r g hg a ha'
  · intro q; rw [hself]; exact R.sides r g hg q
  · intro q; rw [hself]; exact R.psi r g hg q
  · intro o ho; cases ho
  · refine R.pcs_other (recv_other s r g k j q [] ms) ?_ ?_ ?_ ?_
    · intro g' _ hgg; rw [hself]; simp [Vars.setPlace, setAt, hgg]
    · intro _ _ _ _ _; rw [hself]; rfl
    · intro hv g' hg' hgg hrec
      rw [Rank.mayRecv.others hm hv g' hg'] at hrec; exact hrec
    · unfold PcOk; rw [setAt_same]; trivial
  · intro p' q' g' hg'
    obtain ⟨b0, b1, b2⟩ := R.wired p' q' g' hg'
    have hpc : (if q' = r ∧ g' = g then Pc.ops [] else (w.rank q').pc g') = (w.rank q').pc g' := by
      split
      · rename_i h; obtain ⟨rfl, rfl⟩ := h; exact hi'.symm
      · rfl
    have hf : (if p' = r ∧ g' = g then run Z.read (Pc.ops []).left (w.fin Z r g) else w.fin Z p' g') = w.fin Z p' g' := by
      split
      · rename_i h; obtain ⟨rfl, rfl⟩ := h; rfl
      · rfl
    rw [hpc, hf, recv_chan]
    rw [get_setAt2]
    by_cases h : p' = q ∧ q' = r ∧ g' = g
    · obtain ⟨rfl, rfl, rfl⟩ := h
      rw [if_pos ⟨rfl, rfl, rfl⟩, if_pos ⟨rfl, rfl, rfl⟩, hi']
      rw [full_cons_empty _ rfl] at a1 a2
      exact ⟨(List.cons.inj a0).2, a1, a2⟩
    · rw [if_neg h, if_neg fun h' => h ⟨h'.1, h'.2.2, h'.2.1⟩]
      exact ⟨b0, b1, b2⟩

theorem Rel.recvSizes (R : Rel Z angles w s) {r g k j q : Nat} {n : Nat × Nat} {ns : List (Nat × Nat)} (hr : r < S.cfg.nRanks)
    (hg : g < S.nAngleGroups) (hp : (w.rank r).place g = ⟨k, .comm j⟩) (hj : (S.recvAt g r k)[j]? = some q)
    (hm : (w.rank r).mayRecv S r g) (hc : w.c0 q g r = n :: ns) (hn : n.1 ≠ 0) :
    Rel Z angles { w.setRank r ((w.rank r).setPc g (.gotSizes q n)) with
        c0 := setAt w.c0 q (setAt (w.c0 q) g (setAt (w.c0 q g) r ns)) } s := by
  have hi := Rank.mayRecv.idle hg hm
  have hid := Pc.left_idle hi
  have hi' := hi
  rw [Rank.idle] at hi'
  have hps : (s.rank r).place g = ⟨k, .comm j⟩ := by rw [← R.place]; exact hp
  refine R.make (s' := s) hg hid (fun _ _ => rfl) ?_ ?_ ?_ ?_ ?_ ?_ hdis ?_ ?_ ?_ ?_ ?_ ?_
  · exact (R.place r).symm
  · exact (R.turn r).symm
  · exact (R.entered r).symm
  · exact R.log.symm
  · intro _ _; rfl
  · intro _ _; rfl
  · exact R.data r g hg
  · exact R.sides r g hg
  · exact R.psi r g hg
  · intro o ho; cases ho
  · refine R.pcs_other (fun _ _ => rfl) (fun _ _ _ => rfl) (fun _ _ _ _ _ => rfl) ?_ ?_
    · intro hv g' hg' hgg hrec
      rw [Rank.mayRecv.others hm hv g' hg'] at hrec; exact hrec
    · unfold PcOk
      rw [setAt_same]
      refine ⟨hn, hr, hg, ⟨k, j, hps, hj⟩, R.mayRecv hm, fun hv g' hg' hgg => ?_⟩
      rw [Traverse.setAt_ne _ _ hgg]
      exact Rank.mayRecv.others hm hv g' hg'
  · intro p' q' g' hg'
    obtain ⟨b0, b1, b2⟩ := R.wired p' q' g' hg'
    have hf : (if p' = r ∧ g' = g then run Z.read (Pc.gotSizes q n).left (w.fin Z r g) else w.fin Z p' g') = w.fin Z p' g' := by
      split
      · rename_i h; obtain ⟨rfl, rfl⟩ := h; rfl
      · rfl
    rw [hf]
    rw [get_setAt2]
    by_cases h : q' = r ∧ g' = g
    · obtain ⟨rfl, rfl⟩ := h
      rw [hi'] at b0 b1
      rw [if_pos ⟨rfl, rfl⟩]
      by_cases hpq : p' = q
      · subst hpq
        rw [hc] at b0
        simp only [Pc.held0, Pc.held1, and_self, if_true]
        exact ⟨b0, b1, b2⟩
      · have : q ≠ p' := fun e => hpq e.symm
        simp only [Pc.held0, Pc.held1, hpq, this, false_and, if_false]
        exact ⟨b0, b1, b2⟩
    · rw [if_neg h, if_neg fun h' => h ⟨h'.2.2, h'.2.1⟩]
      exact ⟨b0, b1, b2⟩

theorem Rel.recvSides (R : Rel Z angles w s) {r g q : Nat} {n : Nat × Nat} {l : List (Nat × Nat)} {ls : List (List (Nat × Nat))}
    (hg : g < S.nAngleGroups) (hp : (w.rank r).pc g = .gotSizes q n) (hc : w.c1 q g r = l :: ls) :
    Rel Z angles { w.setRank r ((w.rank r).setPc g (.gotSides q n l)) with
        c1 := setAt w.c1 q (setAt (w.c1 q) g (setAt (w.c1 q g) r ls)) } s := by
  have hid : ((w.rank r).pc g).left = [] := by rw [hp]; rfl
  refine R.make (s' := s) hg hid (fun _ _ => rfl) ?_ ?_ ?_ ?_ ?_ ?_ hdis ?_ ?_ ?_ ?_ ?_ ?_
  · exact (R.place r).symm
  · exact (R.turn r).symm
  · exact (R.entered r).symm
  · exact R.log.symm
  · intro _ _; rfl
  · intro _ _; rfl
  · exact R.data r g hg
  · exact R.sides r g hg
  · exact R.psi r g hg
  · intro o ho; cases ho
  · refine R.pcs_other (fun _ _ => rfl) (fun _ _ _ => rfl) (fun _ _ _ _ _ => rfl) ?_ ?_
    · intro hv g' hg' hgg hrec
      have := (R.alone hg hg' (Ne.symm hgg) hrec hv).1
      rw [hp] at this; cases this
    · have h1 := R.pcs r g hg
      unfold PcOk at h1 ⊢
      rw [hp] at h1
      rw [setAt_same]
      refine ⟨h1.1, h1.2.1, h1.2.2.1, h1.2.2.2.1, h1.2.2.2.2.1, fun hv g' hg' hgg => ?_⟩
      rw [Traverse.setAt_ne _ _ hgg]
      exact h1.2.2.2.2.2 hv g' hg' hgg
  · intro p' q' g' hg'
    obtain ⟨b0, b1, b2⟩ := R.wired p' q' g' hg'
    have hf : (if p' = r ∧ g' = g then run Z.read (Pc.gotSides q n l).left (w.fin Z r g) else w.fin Z p' g') = w.fin Z p' g' := by
      split
      · rename_i h; obtain ⟨rfl, rfl⟩ := h; rfl
      · rfl
    rw [hf]
    rw [get_setAt2]
    by_cases h : q' = r ∧ g' = g
    · obtain ⟨rfl, rfl⟩ := h
      rw [hp] at b0 b1
      rw [if_pos ⟨rfl, rfl⟩]
      by_cases hpq : p' = q
      · subst hpq
        rw [hc] at b1
        simp only [Pc.held0, Pc.held1, and_self, if_true] at b0 b1 ⊢
        exact ⟨b0, b1, b2⟩
      · have : q ≠ p' := fun e => hpq e.symm
        simp only [Pc.held0, Pc.held1, hpq, this, false_and, if_false] at b0 b1 ⊢
        exact ⟨b0, b1, b2⟩
    · rw [if_neg h, if_neg fun h' => h ⟨h'.2.2, h'.2.1⟩]
      exact ⟨b0, b1, b2⟩

end

/-- What a thread within `recv` waits for, if the sender has nothing left to do. -/
theorem Rel.waiting (R : Rel Z angles w s) {r g q : Nat} {n : Nat × Nat} (hg : g < S.nAngleGroups)
    (hp : (w.rank r).pc g = .gotSizes q n ∨ ∃ l, (w.rank r).pc g = .gotSides q n l) :
    ∃ m ms, s.chan q r g = m :: ms ∧ n = sizes m ∧ m.length ≠ 0 ∧
      ((w.rank r).pc g).held1 q ++ (w.c1 q g r ++ (w.fin Z q g).c1 r) = keys m :: (full ms).map keys ∧
      w.c2 q g r ++ (w.fin Z q g).c2 r = blocks m :: (full ms).map blocks ∧
      w.c0 q g r ++ (w.fin Z q g).c0 r = ms.map sizes := by
  obtain ⟨a0, a1, a2⟩ := R.wired q r g hg
  have hn : n.1 ≠ 0 := by
    have h1 := R.pcs r g hg
    unfold PcOk at h1
    rcases hp with hp | ⟨l, hp⟩ <;> rw [hp] at h1 <;> exact h1.1
  have hh : ((w.rank r).pc g).held0 q = [n] := by rcases hp with hp | ⟨l, hp⟩ <;> rw [hp] <;> simp [Pc.held0]
  rw [hh] at a0
  cases hch : s.chan q r g with
  | nil => rw [hch] at a0; cases a0
  | cons m ms =>
    rw [hch] at a0 a1 a2
    have h1 : n = sizes m := (List.cons.inj a0).1
    have h2 : m.length ≠ 0 := by rw [h1] at hn; exact hn
    rw [full_cons_more _ h2] at a1 a2
    exact ⟨m, ms, rfl, h1, h2, a1, a2, (List.cons.inj a0).2⟩

theorem Rel.recvPsi (hdis : ∀ g < S.nAngleGroups, ∀ g' < S.nAngleGroups, ∀ a ∈ angles g, a ∈ angles g' → g = g')
    (R : Rel Z angles w s) {r g k j q : Nat} {n : Nat × Nat} {l : List (Nat × Nat)} {b : List B} {bs : List (List B)}
    (hg : g < S.nAngleGroups) (hp : (w.rank r).pc g = .gotSides q n l) (hpl : (w.rank r).place g = ⟨k, .comm j⟩)
    (hc : w.c2 q g r = b :: bs) (hang : ∀ m ∈ s.chan q r g, ∀ p ∈ m, p.angle ∈ angles g) :
    ∃ m ms, s.chan q r g = m :: ms ∧
      Rel Z angles { w.setRank r ((w.rank r).goTo g (.ops (storeOps Z r l b)) ⟨k, .comm (j + 1)⟩) with
        c2 := setAt w.c2 q (setAt (w.c2 q) g (setAt (w.c2 q g) r bs))
        log := w.log ++ (l.zip b).map fun p => .side r ((S.cfg.mesh r).glSide p.1.1) p.1.2 p.2 } (s.recv r g k j q m ms) := by
  have hid : ((w.rank r).pc g).left = [] := by rw [hp]; rfl
  obtain ⟨m, ms, hms, hn, hm0, a1, a2, a0⟩ := R.waiting hg (Or.inr ⟨l, hp⟩)
  have hl : l = keys m := by
    rw [hp] at a1
    simp only [Pc.held1, if_true] at a1
    exact (List.cons.inj a1).1
  have a1' : w.c1 q g r ++ (w.fin Z q g).c1 r = (full ms).map keys := by
    rw [hp] at a1
    simp only [Pc.held1, if_true] at a1
    exact (List.cons.inj a1).2
  rw [hc] at a2
  have hb : b = blocks m := (List.cons.inj a2).1
  have a2' := (List.cons.inj a2).2
  subst hl hb
  refine ⟨m, ms, hms, ?_⟩
  have hmem : ∀ p ∈ m, p.angle ∈ angles g := hang m (by rw [hms]; simp)
  have hon : ∀ o ∈ storeOps Z r (keys m) (blocks m), o.On (· ∈ angles g) := by
    refine storeOps_on fun p hp => ?_
    simp only [keys, List.mem_map] at hp
    obtain ⟨p', hp', rfl⟩ := hp
    exact hmem p' hp'
  have hv : (w.fin Z r g).Same (· ∈ angles g) { w.fin Z r g with e := Z.get (s.rank r).data } :=
    ⟨fun a ha => (R.data r g hg a ha).symm, rfl, rfl, rfl, rfl, rfl, rfl⟩
  have h1 := run_same (read := Z.read) (storeOps Z r (keys m) (blocks m)) hon hv
  have h2 := run_store (Z := Z) r m (s.rank r).data { w.fin Z r g with e := Z.get (s.rank r).data } rfl
  have hself := recv_rank s r g k j q m ms
  refine R.make (s' := s.recv r g k j q m ms) hg hid (recv_other s r g k j q m ms) ?_ ?_ ?_ ?_ ?_ ?_ hdis ?_ ?_ ?_ hon ?_ ?_
  · rw [hself, R.place]; rfl
  · rw [hself, R.turn]; rfl
  · rw [hself, R.entered]; rfl
  · show s.log ++ S.arrivals r m = _
    rw [zip_keys, R.log, List.map_map]; rfl
  · intro g' hgg; rw [hself]; rfl
  · intro a ha'; rw [hself]; exact setBound_other r m hmem ha' _
  · intro a ha'
    simp only [Pc.left]
    rw [hself, h1.e a ha', h2.e]
  · intro q'
    simp only [Pc.left]
    rw [hself, h1.sides, h2.sides]
    show (w.fin Z r g).sides q' ++ [] = _
    rw [List.append_nil]; exact R.sides r g hg q'
  · intro q'
    simp only [Pc.left]
    rw [hself, h1.psi, h2.psi]
    show (w.fin Z r g).psi q' ++ [] = _
    rw [List.append_nil]; exact R.psi r g hg q'
  · refine R.pcs_other (recv_other s r g k j q m ms) ?_ ?_ ?_ ?_
    · intro g' _ hgg; rw [hself]; simp [Vars.setPlace, setAt, hgg]
    · intro _ _ _ _ _; rw [hself]; rfl
    · intro hv g' hg' hgg hrec
      have := (R.alone hg hg' (Ne.symm hgg) hrec hv).1
      rw [hp] at this; cases this
    · unfold PcOk; rw [setAt_same]; trivial
  · intro p' q' g' hg'
    obtain ⟨b0, b1, b2⟩ := R.wired p' q' g' hg'
    have hf0 : (if p' = r ∧ g' = g then run Z.read (Pc.ops (storeOps Z r (keys m) (blocks m))).left (w.fin Z r g) else w.fin Z p' g').c0 =
          (w.fin Z p' g').c0 ∧
        (if p' = r ∧ g' = g then run Z.read (Pc.ops (storeOps Z r (keys m) (blocks m))).left (w.fin Z r g) else w.fin Z p' g').c1 =
          (w.fin Z p' g').c1 ∧
        (if p' = r ∧ g' = g then run Z.read (Pc.ops (storeOps Z r (keys m) (blocks m))).left (w.fin Z r g) else w.fin Z p' g').c2 =
          (w.fin Z p' g').c2 := by
      split
      · rename_i h; obtain ⟨rfl, rfl⟩ := h
        exact ⟨h1.c0.trans h2.c0, h1.c1.trans h2.c1, h1.c2.trans h2.c2⟩
      · exact ⟨rfl, rfl, rfl⟩
    rw [hf0.1, hf0.2.1, hf0.2.2, recv_chan]
    rw [get_setAt2]
    by_cases h : q' = r ∧ g' = g
    · obtain ⟨rfl, rfl⟩ := h
      rw [hp] at b0 b1
      by_cases hpq : p' = q
      · subst hpq
        simp only [Pc.held0, Pc.held1, and_self, if_true, List.nil_append] at b0 b1 ⊢
        exact ⟨a0, a1', a2'⟩
      · have : q ≠ p' := fun e => hpq e.symm
        simp only [Pc.held0, Pc.held1, hpq, this, false_and, if_false, and_self, if_true] at b0 b1 ⊢
        exact ⟨b0, b1, b2⟩
    · rw [if_neg h, if_neg fun h' => h ⟨h'.2.2, h'.2.1⟩, if_neg fun h' => h ⟨h'.2.1, h'.2.2⟩]
      exact ⟨b0, b1, b2⟩

/-- `MPI_Waitall` returns only when it does for whole messages. -/
theorem Rel.flushed (R : Rel Z angles w s) {r g : Nat} (hg : g < S.nAngleGroups) (hi : (w.rank r).idle g)
    (h : w.flushed S r g) : s.flushed r g := by
  intro hb q
  obtain ⟨e0, e1, e2⟩ := h hb q
  obtain ⟨a0, a1, a2⟩ := R.wired r q g hg
  have hf := fin_idle (Z := Z) (Pc.left_idle hi)
  rw [hf, e2] at a2
  rw [hf, e0] at a0
  cases hch : s.chan r q g with
  | nil => rfl
  | cons m ms =>
    rw [hch] at a0 a2
    exfalso
    have hm : m.length = 0 := by
      by_contra hm
      rw [full_cons_more _ hm] at a2
      cases a2
    have h1 := R.pcs q g hg
    unfold PcOk at h1
    cases hp : (w.rank q).pc g with
    | ops l => rw [hp] at a0; cases a0
    | granted => rw [hp] at a0; cases a0
    | gotSizes p n =>
      rw [hp] at a0 h1
      simp only [Pc.held0] at a0
      split at a0
      · have : n = sizes m := (List.cons.inj a0).1
        exact h1.1 (by rw [this]; exact hm)
      · cases a0
    | gotSides p n l =>
      rw [hp] at a0 h1
      simp only [Pc.held0] at a0
      split at a0
      · have : n = sizes m := (List.cons.inj a0).1
        exact h1.1 (by rw [this]; exact hm)
      · cases a0

end Verif.Fine
