import Verif.Fine.Lemmas
import Verif.Schedule.SweepLive

/-! # Each statement or call is a whole step of the sweep or none -/

set_option linter.unusedSectionVars false
set_option linter.unusedVariables false

namespace Verif.Fine
open Verif.Traverse Verif.Schedule

variable {D B E X : Type} {S : Core D B} {Z : Slices S E X}

variable (Z) in
/-- What the thread sees when its statements are done, with the messages it has yet to send. -/
def State.fin (w : State D B E X) (r g : Nat) : View B E X :=
  run Z.read ((w.rank r).pc g).left (w.view Z r g).bare

/-- Sizes received from rank `p` in the present pass of the loop of `recv`. -/
def Pc.held0 (p : Nat) : Pc B E X → List (Nat × Nat)
  | .gotSizes q n | .gotSides q n _ => if q = p then [n] else []
  | _ => []

/-- Sides and angles received from rank `p` in the present pass of the loop of `recv`. -/
def Pc.held1 (p : Nat) : Pc B E X → List (List (Nat × Nat))
  | .gotSides q _ l => if q = p then [l] else []
  | _ => []

/-- The messages with any sides. -/
def full (ms : List (List (Packet B))) : List (List (Packet B)) := ms.filter fun m => decide (m.length ≠ 0)

/-- The three kinds of messages, received, on their way, and yet to be sent, are those of `ms`. -/
structure Wired (h0 c0 o0 : List (Nat × Nat)) (h1 c1 o1 : List (List (Nat × Nat))) (c2 o2 : List (List B))
    (ms : List (List (Packet B))) : Prop where
  sizes : h0 ++ (c0 ++ o0) = ms.map sizes
  keys : h1 ++ (c1 ++ o1) = (full ms).map keys
  blocks : c2 ++ o2 = (full ms).map blocks

/-- The program counter fits the place in the loops. -/
def PcOk (s : SweepState S) (r g : Nat) (pc : Nat → Pc B E X) : Prop :=
  match pc g with
  | .ops _ => True
  | .granted => S.variant = .tycho2 ∧ g < S.nAngleGroups ∧ (s.rank r).turn = g ∧
      ∃ k i, (s.rank r).place g = ⟨k, .compute i⟩ ∧ (S.workAt g r k).length ≤ i ∧ k < S.maxSteps r
  | .gotSizes q n | .gotSides q n _ => n.1 ≠ 0 ∧ r < S.cfg.nRanks ∧ g < S.nAngleGroups ∧
      (∃ k j, (s.rank r).place g = ⟨k, .comm j⟩ ∧ (S.recvAt g r k)[j]? = some q) ∧ (s.rank r).mayRecv r g ∧
      (S.variant = .tycho1 → ∀ g' < S.nAngleGroups, g' ≠ g → pc g' = .ops [])

/-- The state of whole steps `s` is the one `w` gets to when the statements begun are done. -/
structure Rel (Z : Slices S E X) (angles : Nat → List Nat) (w : State D B E X) (s : SweepState S) : Prop where
  place : ∀ r, (w.rank r).place = (s.rank r).place
  turn : ∀ r, (w.rank r).turn = (s.rank r).turn
  entered : ∀ r, (w.rank r).entered = (s.rank r).entered
  log : w.log = s.log
  data : ∀ r, ∀ g < S.nAngleGroups, ∀ a ∈ angles g, Z.get (s.rank r).data a = (w.fin Z r g).e a
  rest : ∀ r a, (∀ g < S.nAngleGroups, a ∉ angles g) → Z.get (s.rank r).data a = Z.get (w.rank r).data a
  sides : ∀ r, ∀ g < S.nAngleGroups, ∀ q, (w.fin Z r g).sides q = keys ((s.rank r).buf g q)
  psi : ∀ r, ∀ g < S.nAngleGroups, ∀ q, (w.fin Z r g).psi q = blocks ((s.rank r).buf g q)
  wired : ∀ p q, ∀ g < S.nAngleGroups, Wired (((w.rank q).pc g).held0 p) (w.c0 p g q) ((w.fin Z p g).c0 q)
    (((w.rank q).pc g).held1 p) (w.c1 p g q) ((w.fin Z p g).c1 q) (w.c2 p g q) ((w.fin Z p g).c2 q) (s.chan p q g)
  on : ∀ r, ∀ g < S.nAngleGroups, ∀ o ∈ ((w.rank r).pc g).left, o.On (· ∈ angles g)
  pcs : ∀ r, ∀ g < S.nAngleGroups, PcOk s r g (w.rank r).pc

theorem Rel.start (angles : Nat → List Nat) : Rel Z angles (start Z) (S.start) where
  place _ := rfl
  turn _ := rfl
  entered _ := rfl
  log := rfl
  data _ _ _ _ _ := rfl
  rest _ _ _ := rfl
  sides _ _ _ _ := rfl
  psi _ _ _ _ := rfl
  wired _ _ _ _ := ⟨rfl, rfl, rfl⟩
  on _ _ _ o ho := by cases ho
  pcs _ _ _ := trivial

theorem fin_congr {w w' : State D B E X} {r g : Nat} (hd : (w'.rank r).data = (w.rank r).data)
    (hx : (w'.rank r).scratch g = (w.rank r).scratch g) (hs : (w'.rank r).sides g = (w.rank r).sides g)
    (hp : (w'.rank r).psi g = (w.rank r).psi g) (hc : (w'.rank r).pc g = (w.rank r).pc g) :
    w'.fin Z r g = w.fin Z r g := by
  simp only [State.fin, State.view, View.bare, hd, hx, hs, hp, hc]

theorem fin_idle {w : State D B E X} {r g : Nat} (h : ((w.rank r).pc g).left = []) :
    w.fin Z r g = (w.view Z r g).bare := by
  simp only [State.fin, h, run_nil]

/-- Steps that change control flow and messages only: what is to be shown about the thread that moves. -/
theorem Rel.make {angles : Nat → List Nat} {w : State D B E X} {s : SweepState S} (R : Rel Z angles w s) {r g : Nat}
    {p : Pc B E X} {pl : Nat → Place} {t e : Nat} {c0 c1 c2} {log : List (Event B)} {s' : SweepState S}
    (hg : g < S.nAngleGroups) (hidle : ((w.rank r).pc g).left = [])
    (hr' : ∀ r', r' ≠ r → s'.rank r' = s.rank r') (hpl : (s'.rank r).place = pl) (ht : (s'.rank r).turn = t)
    (he : (s'.rank r).entered = e) (hlog : s'.log = log)
    (hbuf : ∀ g', g' ≠ g → (s'.rank r).buf g' = (s.rank r).buf g')
    (hother : ∀ a, a ∉ angles g → Z.get (s'.rank r).data a = Z.get (s.rank r).data a)
    (hdis : ∀ g < S.nAngleGroups, ∀ g' < S.nAngleGroups, ∀ a ∈ angles g, a ∈ angles g' → g = g')
    (hdata : ∀ a ∈ angles g, Z.get (s'.rank r).data a = (run Z.read p.left (w.fin Z r g)).e a)
    (hsides : ∀ q, (run Z.read p.left (w.fin Z r g)).sides q = keys ((s'.rank r).buf g q))
    (hpsi : ∀ q, (run Z.read p.left (w.fin Z r g)).psi q = blocks ((s'.rank r).buf g q))
    (hon : ∀ o ∈ p.left, o.On (· ∈ angles g))
    (hpc : ∀ r', ∀ g' < S.nAngleGroups, PcOk s' r' g' (if r' = r then setAt (w.rank r).pc g p else (w.rank r').pc))
    (hw : ∀ p' q, ∀ g' < S.nAngleGroups, Wired ((if q = r ∧ g' = g then p else (w.rank q).pc g').held0 p') (c0 p' g' q)
      ((if p' = r ∧ g' = g then run Z.read p.left (w.fin Z r g) else w.fin Z p' g').c0 q)
      ((if q = r ∧ g' = g then p else (w.rank q).pc g').held1 p') (c1 p' g' q)
      ((if p' = r ∧ g' = g then run Z.read p.left (w.fin Z r g) else w.fin Z p' g').c1 q) (c2 p' g' q)
      ((if p' = r ∧ g' = g then run Z.read p.left (w.fin Z r g) else w.fin Z p' g').c2 q) (s'.chan p' q g')) :
    Rel Z angles (⟨setAt w.rank r { w.rank r with
      pc := setAt (w.rank r).pc g p, place := pl, turn := t, entered := e }, c0, c1, c2, log⟩ : State D B E X) s' := by
  set v : Rank D B E X := { w.rank r with
      pc := setAt (w.rank r).pc g p, place := pl, turn := t, entered := e } with hv
  set w' : State D B E X := ⟨setAt w.rank r v, c0, c1, c2, log⟩ with hw'
  have hrk : ∀ r', w'.rank r' = if r' = r then v else w.rank r' := fun r' => by
    simp only [hw', setAt]
  have hpcs : ∀ r' g', (w'.rank r').pc g' = if r' = r ∧ g' = g then p else (w.rank r').pc g' := by
    intro r' g'
    rw [hrk]
    by_cases h : r' = r
    · subst h
      by_cases h' : g' = g
      · subst h'; simp [hv, setAt]
      · simp [hv, setAt, h']
    · simp [h]
  have hfin : ∀ r' g', w'.fin Z r' g' = if r' = r ∧ g' = g then run Z.read p.left (w.fin Z r g) else w.fin Z r' g' := by
    intro r' g'
    split
    · rename_i h
      obtain ⟨rfl, rfl⟩ := h
      rw [fin_idle hidle]
      have : (w'.view Z r' g').bare = (w.view Z r' g').bare := by
        simp only [State.view, View.bare, hrk, if_true, hv]
      rw [State.fin, this, hpcs, if_pos ⟨rfl, rfl⟩]
    · rename_i h
      have hp' := hpcs r' g'
      rw [if_neg h] at hp'
      refine fin_congr ?_ ?_ ?_ ?_ hp' <;> rw [hrk] <;> split <;> rename_i h1 <;> first | rfl | (subst h1; rfl)
  constructor
  · intro r'
    rw [hrk]
    split
    · rename_i h; subst h; exact hpl.symm
    · rename_i h; rw [hr' r' h, R.place]
  · intro r'
    rw [hrk]
    split
    · rename_i h; subst h; exact ht.symm
    · rename_i h; rw [hr' r' h, R.turn]
  · intro r'
    rw [hrk]
    split
    · rename_i h; subst h; exact he.symm
    · rename_i h; rw [hr' r' h, R.entered]
  · exact hlog.symm
  · intro r' g' hg' a ha
    rw [hfin]
    by_cases h : r' = r
    · subst h
      by_cases h' : g' = g
      · subst h'
        rw [if_pos ⟨rfl, rfl⟩]
        exact hdata a ha
      · rw [if_neg fun h => h' h.2, ← R.data r' g' hg' a ha]
        exact hother a fun ha' => h' (hdis g' hg' g hg a ha ha')
    · rw [if_neg fun h' => h h'.1, hr' r' h]
      exact R.data r' g' hg' a ha
  · intro r' a ha
    rw [hrk]
    split
    · rename_i h; subst h
      rw [hother a (ha g hg)]
      exact R.rest r' a ha
    · rename_i h
      rw [hr' r' h]
      exact R.rest r' a ha
  · intro r' g' hg' q
    rw [hfin]
    split
    · rename_i h; obtain ⟨rfl, rfl⟩ := h; exact hsides q
    · rename_i h
      rw [R.sides r' g' hg']
      by_cases hr : r' = r
      · subst hr; rw [hbuf g' fun e => h ⟨rfl, e⟩]
      · rw [hr' r' hr]
  · intro r' g' hg' q
    rw [hfin]
    split
    · rename_i h; obtain ⟨rfl, rfl⟩ := h; exact hpsi q
    · rename_i h
      rw [R.psi r' g' hg']
      by_cases hr : r' = r
      · subst hr; rw [hbuf g' fun e => h ⟨rfl, e⟩]
      · rw [hr' r' hr]
  · intro p' q g' hg'
    rw [hpcs, hfin]
    exact hw p' q g' hg'
  · intro r' g' hg'
    rw [hpcs]
    split
    · rename_i h; obtain ⟨rfl, rfl⟩ := h; exact hon
    · exact R.on r' g' hg'
  · intro r' g' hg'
    have := hpc r' g' hg'
    rw [hrk]
    split
    · rename_i h; subst h; rwa [if_pos rfl] at this
    · rename_i h; rwa [if_neg h] at this

/-- One statement of a thread. -/
theorem Rel.op {angles : Nat → List Nat} {w : State D B E X} {s : SweepState S} (R : Rel Z angles w s)
    (hdis : ∀ g < S.nAngleGroups, ∀ g' < S.nAngleGroups, ∀ a ∈ angles g, a ∈ angles g' → g = g') {r g : Nat}
    {o : Op B E X} {l : List (Op B E X)} (hg : g < S.nAngleGroups) (hp : (w.rank r).pc g = .ops (o :: l)) :
    Rel Z angles (w.exec Z r g o l) s := by
  set w' := w.exec Z r g o l with hw'
  have hon : ∀ o' ∈ o :: l, o'.On (· ∈ angles g) := by
    have := R.on r g hg; rw [hp] at this; exact this
  have hrk : ∀ r', r' ≠ r → w'.rank r' = w.rank r' := fun r' h => by simp [hw', State.exec, setAt, h]
  have hpcs : ∀ r' g', ¬ (r' = r ∧ g' = g) → (w'.rank r').pc g' = (w.rank r').pc g' := by
    intro r' g' h
    by_cases h1 : r' = r
    · subst h1
      have h2 : g' ≠ g := fun e => h ⟨rfl, e⟩
      simp [hw', State.exec, setAt, h2]
    · rw [hrk r' h1]
  have hpc : (w'.rank r).pc g = .ops l := by simp [hw', State.exec, setAt]
  -- the thread itself
  have hview : w'.view Z r g = exec Z.read (w.view Z r g) o := by
    have he : Z.get (storeData Z (w.rank r).data (exec Z.read (w.view Z r g) o) o) = (exec Z.read (w.view Z r g) o).e := by
      cases o with
      | work a f => simp only [storeData, exec, get_set, State.view]; funext a'; by_cases h : a' = a <;> simp [setAt, h]
      | sendSides q => simp only [storeData, exec]; split <;> rfl
      | sendPsi q => simp only [storeData, exec]; split <;> rfl
      | _ => rfl
    simp only [State.view] at he ⊢
    simp only [hw', State.exec, setAt_same, State.view, he]
  have hself : (w'.fin Z r g).before (w'.c0 r g) (w'.c1 r g) (w'.c2 r g) =
      (w.fin Z r g).before (w.c0 r g) (w.c1 r g) (w.c2 r g) := by
    have h1 : (w'.fin Z r g).before (w'.c0 r g) (w'.c1 r g) (w'.c2 r g) = run Z.read l (w'.view Z r g) := by
      rw [State.fin, ← run_before, hpc]
      exact congrArg _ (View.bare_before _)
    have h2 : (w.fin Z r g).before (w.c0 r g) (w.c1 r g) (w.c2 r g) = run Z.read (o :: l) (w.view Z r g) := by
      rw [State.fin, ← run_before, hp]
      exact congrArg _ (View.bare_before _)
    rw [h1, h2, hview]; rfl
  have hse := congrArg View.e hself
  have hss := congrArg View.sides hself
  have hsp := congrArg View.psi hself
  have hs0 := congrArg View.c0 hself
  have hs1 := congrArg View.c1 hself
  have hs2 := congrArg View.c2 hself
  -- other threads
  have hslice : ∀ a, a ∉ angles g → Z.get (w'.rank r).data a = Z.get (w.rank r).data a := by
    intro a ha
    simp only [hw', State.exec, setAt_same]
    cases o with
    | work a' f =>
      have : a' ∈ angles g := hon (.work a' f) (List.mem_cons_self ..)
      refine Z.get_set_ne _ _ _ _ ?_
      rintro rfl
      exact ha this
    | _ => rfl
  have hoth : ∀ r' g', g' < S.nAngleGroups → ¬ (r' = r ∧ g' = g) → (w'.fin Z r' g').Same (· ∈ angles g') (w.fin Z r' g') := by
    intro r' g' hg' h
    rw [State.fin, State.fin, hpcs r' g' h]
    refine run_same _ (R.on r' g' hg') ?_
    by_cases h1 : r' = r
    · subst h1
      have h2 : g' ≠ g := fun e => h ⟨rfl, e⟩
      refine ⟨fun a ha => hslice a fun ha' => h2 (hdis g' hg' g hg a ha ha'), ?_, ?_, ?_, rfl, rfl, rfl⟩ <;>
        simp [hw', State.exec, State.view, View.bare, setAt, h2]
    · simp only [State.view, hrk r' h1]
      exact .refl _ _
  have hchan : ∀ r' g', ¬ (r' = r ∧ g' = g) → w'.c0 r' g' = w.c0 r' g' ∧ w'.c1 r' g' = w.c1 r' g' ∧
      w'.c2 r' g' = w.c2 r' g' := by
    intro r' g' h
    by_cases h1 : r' = r
    · subst h1
      have h2 : g' ≠ g := fun e => h ⟨rfl, e⟩
      simp [hw', State.exec, setAt, h2]
    · simp [hw', State.exec, setAt, h1]
  have hheld : ∀ r' g' p, ((w'.rank r').pc g').held0 p = ((w.rank r').pc g').held0 p ∧
      ((w'.rank r').pc g').held1 p = ((w.rank r').pc g').held1 p := by
    intro r' g' p
    by_cases h : r' = r ∧ g' = g
    · obtain ⟨rfl, rfl⟩ := h
      rw [hpc, hp]; exact ⟨rfl, rfl⟩
    · rw [hpcs r' g' h]; exact ⟨rfl, rfl⟩
  have hplace : ∀ r', (w'.rank r').place = (w.rank r').place ∧ (w'.rank r').turn = (w.rank r').turn ∧
      (w'.rank r').entered = (w.rank r').entered := by
    intro r'
    by_cases h : r' = r
    · subst h; simp [hw', State.exec, setAt]
    · rw [hrk r' h]; exact ⟨rfl, rfl, rfl⟩
  constructor
  · exact fun r' => (hplace r').1.trans (R.place r')
  · exact fun r' => (hplace r').2.1.trans (R.turn r')
  · exact fun r' => (hplace r').2.2.trans (R.entered r')
  · exact R.log
  · intro r' g' hg' a ha
    rw [R.data r' g' hg' a ha]
    by_cases h : r' = r ∧ g' = g
    · obtain ⟨rfl, rfl⟩ := h
      exact (congrFun hse a).symm
    · exact ((hoth r' g' hg' h).e a ha).symm
  · intro r' a ha
    rw [R.rest r' a ha]
    by_cases h : r' = r
    · subst h; exact (hslice a (ha g hg)).symm
    · rw [hrk r' h]
  · intro r' g' hg' q
    rw [← R.sides r' g' hg' q]
    by_cases h : r' = r ∧ g' = g
    · obtain ⟨rfl, rfl⟩ := h
      exact congrFun hss q
    · rw [(hoth r' g' hg' h).sides]
  · intro r' g' hg' q
    rw [← R.psi r' g' hg' q]
    by_cases h : r' = r ∧ g' = g
    · obtain ⟨rfl, rfl⟩ := h
      exact congrFun hsp q
    · rw [(hoth r' g' hg' h).psi]
  · intro p q g' hg'
    obtain ⟨h1, h2, h3⟩ := R.wired p q g' hg'
    rw [(hheld q g' p).1, (hheld q g' p).2]
    by_cases h : p = r ∧ g' = g
    · obtain ⟨rfl, rfl⟩ := h
      exact ⟨h1 ▸ congrArg _ (congrFun hs0 q), h2 ▸ congrArg _ (congrFun hs1 q), h3 ▸ congrFun hs2 q⟩
    · have ho := hoth p g' hg' h
      obtain ⟨c0, c1, c2⟩ := hchan p g' h
      rw [ho.c0, ho.c1, ho.c2, c0, c1, c2]
      exact ⟨h1, h2, h3⟩
  · intro r' g' hg' o' ho'
    by_cases h : r' = r ∧ g' = g
    · obtain ⟨rfl, rfl⟩ := h
      rw [hpc] at ho'
      exact hon o' (List.mem_cons_of_mem _ ho')
    · rw [hpcs r' g' h] at ho'
      exact R.on r' g' hg' o' ho'
  · intro r' g' hg'
    have := R.pcs r' g' hg'
    by_cases h : r' = r ∧ g' = g
    · obtain ⟨rfl, rfl⟩ := h
      unfold PcOk
      rw [hpc]; trivial
    · unfold PcOk at this ⊢
      rw [hpcs r' g' h]
      by_cases h1 : r' = r
      · subst h1
        have h2 : g ≠ g' := fun e => h ⟨rfl, e.symm⟩
        split at this
        · trivial
        · exact this
        · refine ⟨this.1, this.2.1, this.2.2.1, this.2.2.2.1, this.2.2.2.2.1, fun hv g'' hg'' hne => ?_⟩
          have h3 := this.2.2.2.2.2 hv g hg h2
          rw [hp] at h3; cases h3
        · refine ⟨this.1, this.2.1, this.2.2.1, this.2.2.2.1, this.2.2.2.2.1, fun hv g'' hg'' hne => ?_⟩
          have h3 := this.2.2.2.2.2 hv g hg h2
          rw [hp] at h3; cases h3
      · rwa [hrk r' h1]

end Verif.Fine
