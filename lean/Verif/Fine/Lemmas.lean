import Verif.Fine.Model
import Verif.Traverse.Lemmas9

/-! # The effect of lists of statements -/

set_option linter.unusedSectionVars false

namespace Verif.Fine
open Verif.Traverse Verif.Schedule

variable {D B E X : Type} {read : X → B}

/-- Statements one after the other. -/
def run (read : X → B) (l : List (Op B E X)) (v : View B E X) : View B E X := l.foldl (exec read) v

@[simp] theorem run_nil (v : View B E X) : run read [] v = v := rfl
@[simp] theorem run_cons (o : Op B E X) (l : List (Op B E X)) (v : View B E X) :
    run read (o :: l) v = run read l (exec read v o) := rfl
theorem run_append (l l' : List (Op B E X)) (v : View B E X) :
    run read (l ++ l') v = run read l' (run read l v) := by simp [run, List.foldl_append]

/-- The angles of a statement. -/
def Op.On (A : Nat → Prop) : Op B E X → Prop
  | .work a _ => A a
  | _ => True

/-- Views that agree for the angles of `A`. -/
structure View.Same (A : Nat → Prop) (v v' : View B E X) : Prop where
  e : ∀ a, A a → v.e a = v'.e a
  x : v.x = v'.x
  sides : v.sides = v'.sides
  psi : v.psi = v'.psi
  c0 : v.c0 = v'.c0
  c1 : v.c1 = v'.c1
  c2 : v.c2 = v'.c2

theorem View.Same.refl (A : Nat → Prop) (v : View B E X) : v.Same A v := ⟨fun _ _ => rfl, rfl, rfl, rfl, rfl, rfl, rfl⟩

theorem exec_same {A : Nat → Prop} {v v' : View B E X} (h : v.Same A v') {o : Op B E X} (ho : o.On A) :
    (exec read v o).Same A (exec read v' o) := by
  obtain ⟨e, x, s, p, c0, c1, c2⟩ := v
  obtain ⟨e', x', s', p', c0', c1', c2'⟩ := v'
  obtain ⟨he, rfl, rfl, rfl, rfl, rfl, rfl⟩ := h
  cases o with
  | work a f =>
    have := he a ho
    dsimp only at this
    refine ⟨fun a' ha' => ?_, ?_, rfl, rfl, rfl, rfl, rfl⟩
    · simp only [exec, this]
      by_cases h : a' = a
      · subst h; simp [setAt]
      · simpa [setAt, h] using he a' ha'
    · simp only [exec, this]
  | sendSides q => simp only [exec]; split <;> exact ⟨he, rfl, rfl, rfl, rfl, rfl, rfl⟩
  | sendPsi q => simp only [exec]; split <;> exact ⟨he, rfl, rfl, rfl, rfl, rfl, rfl⟩
  | _ => exact ⟨he, rfl, rfl, rfl, rfl, rfl, rfl⟩

theorem run_same {A : Nat → Prop} (l : List (Op B E X)) (hl : ∀ o ∈ l, o.On A) :
    ∀ {v v' : View B E X}, v.Same A v' → (run read l v).Same A (run read l v') := by
  induction l with
  | nil => exact fun h => h
  | cons o l ih => exact fun h => ih (fun o ho => hl o (by simp [ho])) (exec_same h (hl o (by simp)))

/-- The view without messages on their way. -/
def View.bare (v : View B E X) : View B E X := { v with c0 := fun _ => [], c1 := fun _ => [], c2 := fun _ => [] }

/-- Messages on their way in front of those of `v`. -/
def View.before (v : View B E X) (c0 : Nat → List (Nat × Nat)) (c1 : Nat → List (List (Nat × Nat)))
    (c2 : Nat → List (List B)) : View B E X :=
  { v with c0 := fun q => c0 q ++ v.c0 q, c1 := fun q => c1 q ++ v.c1 q, c2 := fun q => c2 q ++ v.c2 q }

theorem View.bare_before (v : View B E X) : v.bare.before v.c0 v.c1 v.c2 = v := by simp [View.bare, View.before]

theorem setAt_before {α : Type} (c c' : Nat → List α) (q : Nat) (x : α) :
    setAt (fun q => c q ++ c' q) q ((c q ++ c' q) ++ [x]) = fun q' => c q' ++ setAt c' q (c' q ++ [x]) q' := by
  funext q'
  by_cases h : q' = q
  · subst h; simp [setAt]
  · simp [setAt, h]

theorem exec_before (v : View B E X) (c0 c1 c2) (o : Op B E X) :
    exec read (v.before c0 c1 c2) o = (exec read v o).before c0 c1 c2 := by
  obtain ⟨e, x, s, p, d0, d1, d2⟩ := v
  cases o with
  | sendSizes q => simp only [exec, View.before, setAt_before]
  | sendSides q =>
    by_cases h : (s q).length = 0
    · simp [exec, View.before, h]
    · simp only [exec, View.before, h, if_false, setAt_before]
  | sendPsi q =>
    by_cases h : (s q).length = 0
    · simp [exec, View.before, h]
    · simp only [exec, View.before, h, if_false, setAt_before]
  | _ => rfl

theorem run_before (l : List (Op B E X)) : ∀ (v : View B E X) (c0 c1 c2),
    run read l (v.before c0 c1 c2) = (run read l v).before c0 c1 c2 := by
  induction l with
  | nil => exact fun _ _ _ _ => rfl
  | cons o l ih => intro v c0 c1 c2; rw [run_cons, exec_before, ih]; rfl

/-! ### Statements on the entries of one angle -/

theorem run_work (a : Nat) (l : List (E → X → E × X)) : ∀ v : View B E X,
    run read (l.map (.work a)) v = { v with
      e := setAt v.e a (Threads.runAll l (v.e a, v.x)).1
      x := (Threads.runAll l (v.e a, v.x)).2 } := by
  induction l with
  | nil =>
    intro v
    have : setAt v.e a (v.e a) = v.e := by
      funext a'
      by_cases h : a' = a
      · subst h; simp [setAt]
      · simp [setAt, h]
    simp [Threads.runAll, this]
  | cons f l ih =>
    intro v
    rw [List.map_cons, run_cons, ih]
    simp only [exec, Threads.runAll, List.foldl_cons]
    congr 1
    · funext a'
      by_cases h : a' = a
      · subst h; simp [setAt]
      · simp [setAt, h]
    · simp [setAt]

variable {S : Core D B} {Z : Slices S E X}

theorem get_set (d : D) (a : Nat) (e : E) : Z.get (Z.set d a e) = setAt (Z.get d) a e := by
  funext a'
  by_cases h : a' = a
  · subst h; rw [Z.get_set_same]; simp [setAt]
  · rw [Z.get_set_ne _ _ _ _ h]; simp [setAt, h]

/-- The sides with angles of a message. -/
def keys (m : List (Packet B)) : List (Nat × Nat) := m.map fun p => (p.side, p.angle)
/-- The blocks of a message. -/
def blocks (m : List (Packet B)) : List B := m.map Packet.data
/-- The sizes of a message. -/
def sizes (m : List (Packet B)) : Nat × Nat := (m.length, m.length)

@[simp] theorem keys_append (m m' : List (Packet B)) : keys (m ++ m') = keys m ++ keys m' := by simp [keys]
@[simp] theorem blocks_append (m m' : List (Packet B)) : blocks (m ++ m') = blocks m ++ blocks m' := by simp [blocks]
@[simp] theorem keys_length (m : List (Packet B)) : (keys m).length = m.length := by simp [keys]
@[simp] theorem blocks_length (m : List (Packet B)) : (blocks m).length = m.length := by simp [blocks]

/-- The data object is `d`, and the packets `pk` have been appended to the buffers. -/
structure Packed (Z : Slices S E X) (d : D) (pk : Nat → List (Packet B)) (v v' : View B E X) : Prop where
  e : v'.e = Z.get d
  sides : v'.sides = fun q => v.sides q ++ keys (pk q)
  psi : v'.psi = fun q => v.psi q ++ blocks (pk q)
  c0 : v'.c0 = v.c0
  c1 : v'.c1 = v.c1
  c2 : v'.c2 = v.c2

/-- `setBoundData` statement by statement. -/
theorem run_store (r : Nat) (m : List (Packet B)) : ∀ (d : D) (v : View B E X), v.e = Z.get d →
    Packed Z (S.setBoundData r m d) (fun _ => []) v (run Z.read (storeOps Z r (keys m) (blocks m)) v) := by
  induction m with
  | nil => intro d v h; exact ⟨h, by simp [keys, storeOps], by simp [keys, blocks, storeOps], rfl, rfl, rfl⟩
  | cons p m ih =>
    intro d v h
    have hs : storeOps Z r (keys (p :: m)) (blocks (p :: m)) =
        (Z.store r ((S.cfg.mesh r).glSide p.side) p.data).map (.work p.angle) ++
        storeOps Z r (keys m) (blocks m) := by simp [storeOps, keys, blocks]
    rw [hs, run_append, run_work]
    set v' : View B E X := { v with
      e := setAt v.e p.angle (Threads.runAll (Z.store r ((S.cfg.mesh r).glSide p.side) p.data) (v.e p.angle, v.x)).1
      x := (Threads.runAll (Z.store r ((S.cfg.mesh r).glSide p.side) p.data) (v.e p.angle, v.x)).2 } with hv'
    have h' : v'.e = Z.get ((S.cfg.data r).setSideData ((S.cfg.mesh r).glSide p.side) p.angle p.data d) := by
      rw [Z.store_eq r _ _ _ _ v.x, get_set, hv', h]
    have h1 := ih _ v' h'
    exact ⟨h1.e, h1.sides, h1.psi, h1.c0, h1.c1, h1.c2⟩

theorem storeOps_on {A : Nat → Prop} {r : Nat} {l : List (Nat × Nat)} {b : List B} (h : ∀ p ∈ l, A p.2) :
    ∀ o ∈ storeOps Z r l b, o.On A := by
  intro o ho
  simp only [storeOps, List.mem_flatMap, List.mem_map] at ho
  obtain ⟨p, hp, f, -, rfl⟩ := ho
  exact h _ (List.of_mem_zip hp).1

/-- The packets of one face. -/
def facePackets (S : Core D B) (r : Nat) (t : Work) (d : D) (q : Nat) (f : Face) : List (Packet B) :=
  if S.leaves r t.angle t.cell f ∧ (S.cfg.mesh r).adjRank t.cell f = some q then
    [⟨(S.cfg.mesh r).lgSide ((S.cfg.mesh r).side t.cell f), t.angle,
      S.getBoundData d ((S.cfg.mesh r).side t.cell f) t.angle⟩] else []

theorem packets_eq (r : Nat) (t : Work) (d : D) (q : Nat) :
    S.packets r t d q = (List.finRange 4).flatMap (facePackets S r t d q) := by
  unfold Core.packets facePackets
  generalize List.finRange 4 = l
  induction l with
  | nil => rfl
  | cons f l ih =>
    rw [List.filterMap_cons, List.flatMap_cons, ← ih]
    split <;> rename_i h <;> split at h <;> simp_all

theorem run_face (r : Nat) (t : Work) (d : D) (f : Face) (v : View B E X) (h : v.e = Z.get d) :
    Packed Z d (fun q => facePackets S r t d q f) v (run Z.read (faceOps Z r t f) v) := by
  unfold faceOps
  split
  · rename_i hl
    split
    · rename_i q hq
      rw [run_append, run_work]
      obtain ⟨h1, h2⟩ := Z.face_eq ((S.cfg.mesh r).side t.cell f) t.angle d v.x
      have he : setAt v.e t.angle (Threads.runAll (Z.face ((S.cfg.mesh r).side t.cell f)) (v.e t.angle, v.x)).1 = Z.get d := by
        rw [h, h1]
        funext a'
        by_cases ha : a' = t.angle
        · subst ha; simp [setAt]
        · simp [setAt, ha]
      refine ⟨he, ?_, ?_, rfl, rfl, rfl⟩
      · simp only [run_cons, run_nil, exec]
        funext q'
        by_cases hqq : q' = q
        · subst hqq; simp [setAt, facePackets, keys, hl, hq]
        · have : ¬ q = q' := fun e => hqq e.symm
          simp [setAt, hqq, facePackets, keys, hq, this]
      · simp only [run_cons, run_nil, exec]
        funext q'
        by_cases hqq : q' = q
        · subst hqq; simp [setAt, facePackets, blocks, hl, hq, h, h2]
        · have : ¬ q = q' := fun e => hqq e.symm
          simp [setAt, hqq, facePackets, blocks, hq, this]
    · rename_i hq
      refine ⟨h, ?_, ?_, rfl, rfl, rfl⟩ <;> simp [facePackets, hq, keys, blocks]
  · rename_i hl
    refine ⟨h, ?_, ?_, rfl, rfl, rfl⟩ <;> simp [facePackets, hl, keys, blocks]

theorem run_faces (r : Nat) (t : Work) (d : D) (fs : List Face) : ∀ (v : View B E X), v.e = Z.get d →
    Packed Z d (fun q => fs.flatMap (facePackets S r t d q)) v (run Z.read (fs.flatMap (faceOps Z r t)) v) := by
  induction fs with
  | nil => intro v h; exact ⟨h, by simp [keys], by simp [blocks], rfl, rfl, rfl⟩
  | cons f fs ih =>
    intro v h
    rw [List.flatMap_cons, run_append]
    have h1 := run_face (Z := Z) r t d f v h
    have h2 := ih _ h1.e
    refine ⟨h2.e, ?_, ?_, h2.c0.trans h1.c0, h2.c1.trans h1.c1, h2.c2.trans h1.c2⟩
    · rw [h2.sides, h1.sides]; funext q; simp
    · rw [h2.psi, h1.psi]; funext q; simp

/-- One pass of the loop over `getWork(step)`, statement by statement. -/
theorem run_pass (r : Nat) (t : Work) (d : D) (v : View B E X) (h : v.e = Z.get d) :
    Packed Z (S.compute r t d) (S.packets r t (S.compute r t d)) v (run Z.read (workOps Z r t) v) := by
  unfold workOps
  rw [run_append, run_work]
  have h0 : setAt v.e t.angle (Threads.runAll (Z.parts r t.cell t.angle) (v.e t.angle, v.x)).1 =
      Z.get (S.compute r t d) := by
    rw [Z.parts_eq r t.cell t.angle d v.x, get_set, h]
  set v' : View B E X := { v with
    e := setAt v.e t.angle (Threads.runAll (Z.parts r t.cell t.angle) (v.e t.angle, v.x)).1
    x := (Threads.runAll (Z.parts r t.cell t.angle) (v.e t.angle, v.x)).2 }
  have h1 := run_faces (Z := Z) r t (S.compute r t d) (List.finRange 4) v' h0
  rw [← funext fun q => packets_eq r t (S.compute r t d) q] at h1
  exact ⟨h1.e, h1.sides, h1.psi, h1.c0, h1.c1, h1.c2⟩

theorem workOps_on {A : Nat → Prop} {r : Nat} {t : Work} (h : A t.angle) : ∀ o ∈ workOps Z r t, o.On A := by
  intro o ho
  simp only [workOps, List.mem_append, List.mem_map, List.mem_flatMap] at ho
  rcases ho with ⟨f, -, rfl⟩ | ⟨f, -, ho⟩
  · exact h
  · unfold faceOps at ho
    split at ho
    · split at ho
      · simp only [List.mem_append, List.mem_map, List.mem_cons, List.not_mem_nil, or_false] at ho
        rcases ho with ⟨f, -, rfl⟩ | rfl | rfl
        · exact h
        · trivial
        · trivial
      · cases ho
    · cases ho

/-! ### `send` -/

/-- What `send` leaves. -/
structure Posted (l : List Nat) (v v' : View B E X) : Prop where
  e : v'.e = v.e
  x : v'.x = v.x
  sides : ∀ q, v'.sides q = if q ∈ l then [] else v.sides q
  psi : ∀ q, v'.psi q = if q ∈ l then [] else v.psi q
  c0 : ∀ q, v'.c0 q = v.c0 q ++ if q ∈ l then [((v.sides q).length, (v.psi q).length)] else []
  c1 : ∀ q, v'.c1 q = v.c1 q ++ if q ∈ l ∧ (v.sides q).length ≠ 0 then [v.sides q] else []
  c2 : ∀ q, v'.c2 q = v.c2 q ++ if q ∈ l ∧ (v.sides q).length ≠ 0 then [v.psi q] else []

theorem run_send (l : List Nat) (hl : l.Nodup) : ∀ v : View B E X, Posted l v (run read (sendOps l) v) := by
  induction l with
  | nil => intro v; constructor <;> simp [sendOps]
  | cons p l ih =>
    intro v
    rw [List.nodup_cons] at hl
    have hs : sendOps (B := B) (E := E) (X := X) (p :: l) =
        [.sendSizes p, .sendSides p, .sendPsi p, .clear p] ++ sendOps l := by simp [sendOps]
    rw [hs, run_append]
    set v' := run read [.sendSizes p, .sendSides p, .sendPsi p, .clear p] v with hv'
    have h1 : v' = { v with
        sides := setAt v.sides p []
        psi := setAt v.psi p []
        c0 := setAt v.c0 p (v.c0 p ++ [((v.sides p).length, (v.psi p).length)])
        c1 := if (v.sides p).length = 0 then v.c1 else setAt v.c1 p (v.c1 p ++ [v.sides p])
        c2 := if (v.sides p).length = 0 then v.c2 else setAt v.c2 p (v.c2 p ++ [v.psi p]) } := by
      simp only [hv', run_cons, run_nil, exec]
      by_cases h : (v.sides p).length = 0 <;> simp [h]
    have h2 := ih hl.2 v'
    have hp := hl.1
    refine ⟨h2.e.trans (by rw [h1]), h2.x.trans (by rw [h1]), ?_, ?_, ?_, ?_, ?_⟩ <;> intro q
    · rw [h2.sides, h1]; by_cases hq : q = p
      · subst hq; simp [setAt]
      · simp [setAt, hq]
    · rw [h2.psi, h1]; by_cases hq : q = p
      · subst hq; simp [setAt]
      · simp [setAt, hq]
    · rw [h2.c0, h1]; by_cases hq : q = p
      · subst hq; simp [setAt, hp]
      · simp [setAt, hq]
    · rw [h2.c1, h1]; by_cases hq : q = p
      · subst hq; simp only [hp, false_and, if_false, List.append_nil, List.mem_cons_self, true_and]
        by_cases h : (v.sides q).length = 0 <;> simp [setAt, h]
      · by_cases h : (v.sides p).length = 0 <;> simp [setAt, hq, h]
    · rw [h2.c2, h1]; by_cases hq : q = p
      · subst hq; simp only [hp, false_and, if_false, List.append_nil, List.mem_cons_self, true_and]
        by_cases h : (v.sides q).length = 0 <;> simp [setAt, h]
      · by_cases h : (v.sides p).length = 0 <;> simp [setAt, hq, h]

theorem sendOps_on {A : Nat → Prop} {l : List Nat} : ∀ o ∈ sendOps (B := B) (E := E) (X := X) l, o.On A := by
  intro o ho
  simp only [sendOps, List.mem_flatMap, List.mem_cons, List.not_mem_nil, or_false] at ho
  obtain ⟨q, -, rfl | rfl | rfl | rfl⟩ := ho <;> trivial

end Verif.Fine
