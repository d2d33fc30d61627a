import Verif.Lifetime.Model
import Mathlib.Data.List.Perm.Basic

/-!
# The sizes a receiver gets
-/
namespace Verif.Lifetime

/-- The code, and what MPI and the allocator promise. -/
def code : Policy := ⟨false, false, false⟩

variable {p : Policy} {size : Nat × Nat → List Nat} {l : List (Nat × Nat)} {heap : Nat → List Nat} {live : Nat → Bool} {s : State}

/-- Destinations not yet served. -/
def Pc.rest : Pc → List (Nat × Nat)
  | .loop l => l
  | .made _ q l => q :: l
  | .posted _ _ l => l
  | .done => []

/-- All buffers of the requests hold the right sizes. -/
structure Sound (p : Policy) (size : Nat × Nat → List Nat) (l : List (Nat × Nat)) (s : State) : Prop where
  count : List.Perm (s.sent.map Prod.fst ++ s.pending.map Prod.snd ++ s.pc.rest) l
  right : ∀ e ∈ s.sent, e.2 = size e.1
  held : ∀ e ∈ s.pending, s.heap e.1 = size e.2
  safe : ∀ e ∈ s.pending, p.unused = true ∨ s.live e.1 = true
  made : ∀ b q r, s.pc = .made b q r → s.heap b = size q ∧ s.live b = true
  posted : ∀ b q r, s.pc = .posted b q r → s.live b = true
  empty : p.copied = true → s.pending = []
  ended : s.pc = .done → s.pending = []

theorem setAt_same {α : Type} (f : Nat → α) (i : Nat) (x : α) : setAt f i x i = x := if_pos rfl
theorem setAt_ne {α : Type} (f : Nat → α) {i j : Nat} (x : α) (h : j ≠ i) : setAt f i x j = f j := if_neg h

theorem usable_ne (h : Sound p size l s) {b : Nat} (hb : s.usable p b) : ∀ e ∈ s.pending, e.1 ≠ b := by
  intro e he
  rcases h.safe e he with hu | hl
  · exact hb.2 hu e he
  · intro heq
    rw [heq, hb.1] at hl
    cases hl

theorem Sound.step (hp : p.copied = true ∨ p.unused = true ∨ p.kept = true) (h : Sound p size l s) {s' : State}
    (hs : Step p size s s') : Sound p size l s' := by
  cases hs with
  | make b q r hpc hb =>
    have hne := usable_ne h hb
    refine ⟨?_, h.right, ?_, ?_, ?_, ?_, h.empty, ?_⟩
    · have := h.count; rw [hpc] at this; exact this
    · intro e he
      show setAt s.heap b _ e.1 = _
      rw [setAt_ne _ _ (hne e he)]; exact h.held e he
    · intro e he
      rcases h.safe e he with hu | hl
      · exact .inl hu
      · refine .inr ?_
        show setAt s.live b _ e.1 = _
        rw [setAt_ne _ _ (hne e he)]; exact hl
    · intro b' q' r' he
      obtain ⟨rfl, rfl, rfl⟩ := Pc.made.inj he
      exact ⟨setAt_same _ _ _, setAt_same _ _ _⟩
    · intro b' q' r' he; cases he
    · intro he; cases he
  | post b q r hpc hc =>
    obtain ⟨h1, h2⟩ := h.made _ _ _ hpc
    refine ⟨?_, h.right, ?_, ?_, ?_, ?_, ?_, ?_⟩
    · have := h.count
      rw [hpc] at this
      simp only [Pc.rest] at this
      simpa [Pc.rest] using this
    · intro e he
      rcases List.mem_append.1 he with he | he
      · exact h.held e he
      · rw [List.mem_singleton.1 he]; exact h1
    · intro e he
      rcases List.mem_append.1 he with he | he
      · exact h.safe e he
      · rw [List.mem_singleton.1 he]; exact .inr h2
    · intro b' q' r' he; cases he
    · intro b' q' r' he
      obtain ⟨rfl, rfl, rfl⟩ := Pc.posted.inj he
      exact h2
    · intro hc'; rw [hc] at hc'; cases hc'
    · intro he; cases he
  | copy b q r hpc hc =>
    obtain ⟨h1, h2⟩ := h.made _ _ _ hpc
    have h0 := h.empty hc
    refine ⟨?_, ?_, h.held, h.safe, ?_, ?_, h.empty, ?_⟩
    · have := h.count
      rw [hpc, h0] at this
      simp only [Pc.rest] at this
      simpa [Pc.rest, h0] using this
    · intro e he
      rcases List.mem_append.1 he with he | he
      · exact h.right e he
      · rw [List.mem_singleton.1 he]; exact h1
    · intro b' q' r' he; cases he
    · intro b' q' r' he
      obtain ⟨rfl, rfl, rfl⟩ := Pc.posted.inj he
      exact h2
    · intro he; cases he
  | drop b q r hpc hk =>
    refine ⟨?_, h.right, h.held, ?_, ?_, ?_, h.empty, ?_⟩
    · have := h.count; rw [hpc] at this; exact this
    · intro e he
      rcases hp with hp | hp | hp
      · rw [h.empty hp] at he; cases he
      · exact .inl hp
      · rw [hk] at hp; cases hp
    · intro b' q' r' he; cases he
    · intro b' q' r' he; cases he
    · intro he; cases he
  | keep b q r hpc hk =>
    refine ⟨?_, h.right, h.held, h.safe, ?_, ?_, h.empty, ?_⟩
    · have := h.count; rw [hpc] at this; exact this
    · intro b' q' r' he; cases he
    · intro b' q' r' he; cases he
    · intro he; cases he
  | reuse b x hb =>
    have hne := usable_ne h hb
    refine ⟨h.count, h.right, ?_, h.safe, ?_, h.posted, h.empty, h.ended⟩
    · intro e he
      show setAt s.heap b _ e.1 = _
      rw [setAt_ne _ _ (hne e he)]; exact h.held e he
    · intro b' q' r' he
      obtain ⟨h1, h2⟩ := h.made b' q' r' he
      have : b' ≠ b := by rintro rfl; rw [hb.1] at h2; cases h2
      refine ⟨?_, h2⟩
      show setAt s.heap b _ b' = _
      rw [setAt_ne _ _ this]; exact h1
  | read b q r r' hpe =>
    have hin : ∀ e ∈ r ++ r', e ∈ s.pending := by
      intro e he
      rw [hpe]
      rcases List.mem_append.1 he with he | he <;> simp [he]
    refine ⟨?_, ?_, fun e he => h.held e (hin e he), fun e he => h.safe e (hin e he), h.made, h.posted, ?_, ?_⟩
    · refine List.Perm.trans ?_ h.count
      rw [hpe]
      refine List.Perm.append_right _ ?_
      simp only [List.map_append, List.map_cons, List.map_nil, List.append_assoc, List.cons_append, List.nil_append]
      exact List.Perm.append_left _ (List.perm_middle.symm)
    · intro e he
      rcases List.mem_append.1 he with he | he
      · exact h.right e he
      · rw [List.mem_singleton.1 he]
        exact h.held (b, q) (by rw [hpe]; simp)
    · intro hc
      have := h.empty hc
      rw [hpe] at this
      simp at this
    · intro hd
      have := h.ended hd
      rw [hpe] at this
      simp at this
  | wait hpc hpe =>
    refine ⟨?_, h.right, h.held, h.safe, ?_, ?_, h.empty, ?_⟩
    · have := h.count; rw [hpc] at this; exact this
    · intro b' q' r' he; cases he
    · intro b' q' r' he; cases he
    · intro _; exact hpe

theorem Sound.start : Sound p size l (start l heap live) := by
  constructor <;> simp [Lifetime.start, Pc.rest]

/-- C95, in part: each destination is told its sizes, once, if MPI copies messages at the call, or freed
memory is not used again before the wait, or the program keeps the vectors until then. The code does not
see to any of the three. -/
theorem sizes_right_partial (hp : p.copied = true ∨ p.unused = true ∨ p.kept = true) (h : Run p size (start l heap live) s) :
    (∀ e ∈ s.sent, e.2 = size e.1) ∧ (s.pc = .done → List.Perm (s.sent.map Prod.fst) l) := by
  have hs : Sound p size l s := by
    induction h with
    | refl => exact .start
    | step _ h1 ih => exact ih.step hp h1
  refine ⟨hs.right, fun hd => ?_⟩
  have := hs.count
  rw [hs.ended hd, hd] at this
  simpa [Pc.rest] using this

/-- While there is memory, `send` and the wait are not stuck, whatever the policy. -/
theorem sizes_progress (hfree : ∃ b, s.usable p b) (hno : s.pc ≠ .done) :
    ∃ s', Step p size s s' := by
  cases hpc : s.pc with
  | done => exact absurd hpc hno
  | made b q r =>
    cases hc : p.copied with
    | false => exact ⟨_, .post s b q r hpc hc⟩
    | true => exact ⟨_, .copy s b q r hpc hc⟩
  | posted b q r =>
    cases hk : p.kept with
    | false => exact ⟨_, .drop s b q r hpc hk⟩
    | true => exact ⟨_, .keep s b q r hpc hk⟩
  | loop r =>
    cases r with
    | cons q r =>
      obtain ⟨b, hb⟩ := hfree
      exact ⟨_, .make s b q r hpc hb⟩
    | nil =>
      cases hpe : s.pending with
      | nil => exact ⟨_, .wait s hpc hpe⟩
      | cons e r => exact ⟨_, .read s e.1 e.2 [] r hpe⟩

/-- C95: with the code as it is a receiver can be told anything: for all destinations, all right sizes and all
others, some execution tells each destination the others. -/
theorem sizes_any (size wrong : Nat × Nat → List Nat) (l : List (Nat × Nat)) (heap : Nat → List Nat) {live : Nat → Bool} {b : Nat}
    (hb : live b = false) :
    ∃ s, Run code size (start l heap live) s ∧ s.pc = .done ∧ s.sent = l.map fun q => (q, wrong q) := by
  have key : ∀ (r : List (Nat × Nat)) (s : State), Run code size (start l heap live) s → s.pc = .loop r → s.live b = false →
      s.pending = [] → ∃ s', Run code size (start l heap live) s' ∧ s'.pc = .done ∧ s'.sent = s.sent ++ r.map fun q => (q, wrong q) := by
    intro r
    induction r with
    | nil =>
      intro s hs hpc _ hpe
      exact ⟨_, hs.step (.wait s hpc hpe), rfl, by simp⟩
    | cons q r ih =>
      intro s hs hpc hl hpe
      have h1 := hs.step (.make s b q r hpc ⟨hl, fun h => by cases h⟩)
      have h2 := h1.step (.post _ b q r rfl rfl)
      have h3 := h2.step (.drop _ b q r rfl rfl)
      have h4 := h3.step (.reuse _ b (wrong q) ⟨setAt_same _ _ _, fun h => by cases h⟩)
      have h5 := h4.step (.read _ b q [] [] (by simp [hpe]))
      obtain ⟨s', a1, a2, a3⟩ := ih _ h5 rfl (setAt_same _ _ _) rfl
      refine ⟨s', a1, a2, ?_⟩
      rw [a3]
      simp [setAt_same]
  exact key l _ .refl rfl hb rfl

/-- C95: no allocation but those of `send` itself is needed: with two destinations the first can be told the
sizes of the second. -/
theorem sizes_swapped (size : Nat × Nat → List Nat) (q q' : Nat × Nat) (heap : Nat → List Nat) {live : Nat → Bool} {b : Nat}
    (hb : live b = false) :
    ∃ s, Run code size (start [q, q'] heap live) s ∧ s.pc = .done ∧ s.sent = [(q, size q'), (q', size q')] := by
  have h1 := Run.refl.step (.make (start [q, q'] heap live) b q [q'] (p := code) (size := size) rfl ⟨hb, fun h => by cases h⟩)
  have h2 := h1.step (.post _ b q [q'] rfl rfl)
  have h3 := h2.step (.drop _ b q [q'] rfl rfl)
  have h4 := h3.step (.make _ b q' [] rfl ⟨setAt_same _ _ _, fun h => by cases h⟩)
  have h5 := h4.step (.post _ b q' [] rfl rfl)
  have h6 := h5.step (.drop _ b q' [] rfl rfl)
  have h7 := h6.step (.read _ b q [] [(b, q')] rfl)
  have h8 := h7.step (.read _ b q' [] [] rfl)
  have h9 := h8.step (.wait _ rfl rfl)
  refine ⟨_, h9, rfl, ?_⟩
  simp [setAt_same, start]

/-- With the sizes of its messages a receiver gets them as they are. -/
theorem recv_right {α : Type} (zero : α) (sides : List (Nat × Nat)) (psi : List α) (hs : sides ≠ []) :
    recv zero [sides.length, psi.length] (sides.flatMap fun e => [e.1, e.2]) psi =
      some (sides.flatMap fun e => [e.1, e.2], psi) := by
  have hl : (sides.flatMap fun e => [e.1, e.2]).length = 2 * sides.length := by
    clear hs
    induction sides with
    | nil => rfl
    | cons e r ih => rw [List.flatMap_cons, List.length_append, ih, List.length_cons]; simp; omega
  have h0 : sides.length ≠ 0 := fun h => hs (List.length_eq_zero_iff.1 h)
  simp [recv, received, hl, h0]

/-- C95: with the sizes of a shorter transfer the receive fails. -/
theorem recv_fails {α : Type} (zero : α) (sides : List Nat) (psi : List α) {n m : Nat} (h0 : n ≠ 0) (hn : 2 * n < sides.length) :
    recv zero [n, m] sides psi = none := by
  simp [recv, received, h0, hn]

/-- C95: with those of a longer one `setBoundData` gets sides and angles that nobody sent. -/
theorem recv_invents {α : Type} (zero : α) (sides : List Nat) (psi : List α) {n m : Nat} (h0 : n ≠ 0) (hn : sides.length ≤ 2 * n)
    (hm : psi.length ≤ m) :
    recv zero [n, m] sides psi = some (sides ++ List.replicate (2 * n - sides.length) 0, psi ++ List.replicate (m - psi.length) zero) := by
  simp [recv, received, h0, Nat.not_lt.2 hn, Nat.not_lt.2 hm]

/-- C95: so a sweep can fail: a transfer of two sides to one rank and of one side to another, all sizes set as the
code sets them. -/
theorem sizes_fail : ∃ (size : Nat × Nat → List Nat) (sides : Nat × Nat → List (Nat × Nat)) (psi : Nat × Nat → List Nat) (s : State),
    (∀ q, size q = [(sides q).length, (psi q).length]) ∧ Run code size (start [(0, 1), (0, 2)] (fun _ => []) fun _ => false) s ∧
    s.pc = .done ∧ ∃ e ∈ s.sent, recv 0 e.2 ((sides e.1).flatMap fun e => [e.1, e.2]) (psi e.1) = none := by
  let sides : Nat × Nat → List (Nat × Nat) := fun q => if q.2 = 1 then [(4, 0), (5, 0)] else [(6, 0)]
  let psi : Nat × Nat → List Nat := fun q => if q.2 = 1 then [1, 2, 3, 4, 5, 6] else [7, 8, 9]
  obtain ⟨s, h1, h2, h3⟩ := sizes_swapped (fun q => [(sides q).length, (psi q).length]) (0, 1) (0, 2) (fun _ => [])
    (live := fun _ => false) (b := 0) rfl
  refine ⟨_, sides, psi, s, fun _ => rfl, h1, h2, ((0, 1), [1, 3]), by rw [h3]; simp [sides, psi], rfl⟩

/-- The hypotheses of `sizes_right_partial` can be met: an execution with vectors that are kept. -/
example : ∃ s, Run ⟨false, false, true⟩ (fun q => [q.2, 3 * q.2]) (start [(0, 1), (0, 2)] (fun _ => []) fun _ => false) s ∧
    s.pc = .done ∧ s.sent = [((0, 2), [2, 6]), ((0, 1), [1, 3])] := by
  have h1 := Run.refl.step (.make (start [(0, 1), (0, 2)] (fun _ => []) fun _ => false) 0 (0, 1) [(0, 2)]
    (p := ⟨false, false, true⟩) (size := fun q => [q.2, 3 * q.2]) rfl ⟨rfl, fun h => by cases h⟩)
  have h2 := h1.step (.post _ 0 (0, 1) [(0, 2)] rfl rfl)
  have h3 := h2.step (.keep _ 0 (0, 1) [(0, 2)] rfl rfl)
  have h4 := h3.step (.make _ 1 (0, 2) [] rfl ⟨rfl, fun h => by cases h⟩)
  have h5 := h4.step (.post _ 1 (0, 2) [] rfl rfl)
  have h6 := h5.step (.keep _ 1 (0, 2) [] rfl rfl)
  have h7 := h6.step (.read _ 1 (0, 2) [(0, (0, 1))] [] rfl)
  have h8 := h7.step (.read _ 0 (0, 1) [] [] rfl)
  have h9 := h8.step (.wait _ rfl rfl)
  exact ⟨_, h9, rfl, rfl⟩

end Verif.Lifetime
