import Verif.Joint.Props

/-!
# Sweeps with both their threads and their MPI calls in single steps

The values of a face travel as the bytes of `3 * nGroups` doubles (src/SweepData.hh:80-122).
-/

set_option linter.unusedSectionVars false

namespace Verif.Joint

open Verif.MeshFile Verif.TychoMesh Verif.Traverse Verif.Floating

variable {F : Type} {nA nG : Nat}

/-- How a `double` is stored: in eight bytes from which it can be read back. -/
structure Double (F : Type) where
  enc : F → List UInt8
  dec : List UInt8 → F
  len : ∀ x, (enc x).length = 8
  dec_enc : ∀ x, dec (enc x) = x

/-- `localFaceData` of `getData` and `setSideData` as bytes: `(fvrtx, group)` is element
`group * g_nVrtxPerFace + fvrtx` (src/Mat.hh:170-176, src/SweepData.hh:80-122). -/
def blockCodec (E : Double F) (nG : Nat) : Wire.Codec (Fin 3 → Fin nG → F) where
  size := nG * 3 * 8
  enc b := (List.finRange nG).flatMap fun g => (List.finRange 3).flatMap fun k => E.enc (b k g)
  dec l k g := E.dec ((l.drop (8 * (g * 3 + k))).take 8)

theorem flatMap_length {α β : Type} {f : α → List β} {m : Nat} (hf : ∀ x, (f x).length = m) (l : List α) :
    (l.flatMap f).length = l.length * m := by
  induction l with
  | nil => simp
  | cons x l ih => rw [List.flatMap_cons, List.length_append, hf, ih, List.length_cons, Nat.succ_mul, Nat.add_comm]

theorem flatMap_drop {α β : Type} {f : α → List β} {m : Nat} (hf : ∀ x, (f x).length = m) (l : List α) {i : Nat}
    (hi : i < l.length) : (l.flatMap f).drop (m * i) = f l[i] ++ (l.drop (i + 1)).flatMap f := by
  induction l generalizing i with
  | nil => simp at hi
  | cons x l ih =>
    cases i with
    | zero => simp
    | succ i =>
      rw [List.flatMap_cons, List.drop_append, Nat.mul_succ, List.drop_eq_nil_of_le (by rw [hf]; omega), List.nil_append, hf,
        Nat.add_sub_cancel, ih (by simpa using hi)]
      simp

theorem block_ok (E : Double F) (nG : Nat) : (blockCodec E nG).Ok := by
  have h1 : ∀ (b : Fin 3 → Fin nG → F) (g : Fin nG), ((List.finRange 3).flatMap fun k => E.enc (b k g)).length = 24 := by
    intro b g
    rw [flatMap_length fun k => E.len _, List.length_finRange]
  constructor
  · intro b
    unfold blockCodec
    dsimp only
    rw [flatMap_length (h1 b), List.length_finRange]
    omega
  · intro b
    funext k g
    unfold blockCodec
    dsimp only
    have h2 := flatMap_drop (f := fun g => (List.finRange 3).flatMap fun k => E.enc (b k g)) (h1 b) (List.finRange nG)
      (i := g) (by rw [List.length_finRange]; exact g.2)
    have h3 := flatMap_drop (f := fun k => E.enc (b k g)) (fun k => E.len _) (List.finRange 3) (i := k)
      (by rw [List.length_finRange]; exact k.2)
    rw [show 8 * ((g : Nat) * 3 + k) = 24 * g + 8 * k by omega, ← List.drop_drop, h2]
    simp only [List.getElem_finRange, Fin.cast_mk, Fin.eta] at h3 ⊢
    rw [List.drop_append_of_le_length (by rw [h1 b g]; have := k.2; omega), h3, List.append_assoc,
      List.take_append_of_le_length (by rw [E.len]), List.take_of_length_le (by rw [E.len]), E.dec_enc]

variable {K : Kernel F nA nG} {coord : Nat → F} {n : Nat} {T : Nat → Mesh} {D : Nat → Tables F}

/-- No message can have more bytes than an `int` counts: the packets of an exchange between two ranks are
at most one for each angle and shared face and at most four for each task of a batch. -/
def Short (nA nG n : Nat) (T : Nat → Mesh) (sched : Schedule F) : Prop :=
  ∀ r < n, ∀ q, (16 + nG * 24) * min (nA * (((Finset.range (T r).nCells ×ˢ (Finset.univ : Finset Face)).filter fun p =>
      ((T r).getAdjCell p.1 p.2).bind toNone = none ∧ ((T r).getAdjRank p.1 p.2).bind toNone = some q).card))
    (4 * (sched.threads * sched.batch)) < 2 ^ 31 - 1

/-- A sweep whose threads interleave assignment by assignment and whose ranks interleave call by call may
return with `psi'`. -/
def JointSwept (E : Double F) (K : Kernel F nA nG) (n : Nat) (T : Nat → Mesh) (D : Nat → Tables F)
    (source psi psi' : Nat → Psi F) : Prop :=
  ∃ (sched : Schedule F) (x0 : Threads.Scratch F nG) (k : Nat)
    (w : State (Psi F × Bound F) (Fin 3 → Fin nG → F) (Threads.Slice F) (Threads.Scratch F nG)),
    0 < sched.threads ∧ sched.protocol = .tycho ∧ Short nA nG n T sched ∧
    Run (K.cfg n T D sched source psi) (Threads.sweepSlices K n T D sched source psi x0) (blockCodec E nG) k w ∧
    ∀ r < n, (w.net.rank r).phase = .finished ∧ (w.net.rank r).data.1 = psi' r

theorem lgSide_lt {S : Type} [LinearOrder S] {val : Nat → S} {m : SerialMesh} {pv : List Nat} {P : ParallelMesh}
    (H : Created m pv n P) (L : Loaded val P T) {r s g : Nat} (hr : r < n) (h : (T r).getLGSide s = some g) :
    g < m.faces.length := by
  have hl : r < P.parts.length := by rw [(create_cells H.create).1]; exact hr
  have hp : P.parts[r]? = some P.parts[r] := List.getElem?_eq_getElem hl
  obtain ⟨B, -, hBl, hBn, -⟩ := loc_facts (x := ⟨r, 0, 0⟩) H L hp
  unfold Mesh.getLGSide at h
  obtain ⟨y, hy, -⟩ := Option.map_eq_some_iff.1 h
  have hs := (List.getElem?_eq_some_iff.1 hy).1
  dsimp only at hBl hBn
  obtain ⟨x, ⟨rfl, hE, hb, hside⟩, -⟩ := sides_onto H L hl (s := s) (by omega)
  obtain ⟨c, g', hat⟩ := exists_at H hE
  obtain ⟨s', h1, -, -, h2, -⟩ := (sides H L hat).1 hb
  rw [hside, Option.some.injEq] at h1
  subst h1
  rw [show (T x.rank).getLGSide s = some g from h, Option.some.injEq] at h2
  subst h2
  obtain ⟨part, cell, d, e, -, -, -, -, -, hf, -⟩ := hat
  exact (List.getElem?_eq_some_iff.1 hf).1

theorem cfg_fits {S : Type} [LinearOrder S] {val : Nat → S} {m : SerialMesh} {pv : List Nat} {P : ParallelMesh}
    (H : Created m pv n P) (L : Loaded val P T) (hm : m.faces.length ≤ 2 ^ 64) (hA : nA ≤ 2 ^ 64) (E : Double F)
    (source psi0 : Nat → Psi F) (sched : Schedule F) (hS : Short nA nG n T sched) :
    Wire.Fits (K.cfg n T D sched source psi0) (blockCodec E nG) where
  sides x hx := by
    show ((T x.rank).getLGSide (((T x.rank).getSide x.cell x.face).getD 0)).getD 0 < 2 ^ 64
    cases h : (T x.rank).getLGSide (((T x.rank).getSide x.cell x.face).getD 0) with
    | none => exact Nat.two_pow_pos 64
    | some g => exact lt_of_lt_of_le (lgSide_lt H L hx.1 h) hm
  angles := hA
  bytes r hr q := by
    have h1 : Verif.Packet.packetSize (blockCodec E nG).size = 16 + nG * 24 := by
      simp only [Verif.Packet.packetSize, blockCodec]; omega
    rw [h1]
    exact hS r hr q

/-- C92: what threads and ranks interleaving assignment by assignment and call by call can leave, whole
passes and messages can leave. -/
theorem joint_swept {S : Type} [LinearOrder S] {val : Nat → S} {m : SerialMesh} {pv : List Nat} {P : ParallelMesh}
    (H : Created m pv n P) (hn : n < uintMax) (L : Loaded val P T) (hD : Started K coord P T D)
    (hcons : Spec.Consistent K coord m) (hs : ∀ r < n, nA * (T r).nCells < 2 ^ 64) (hm : m.faces.length ≤ 2 ^ 64)
    (hA : nA ≤ 2 ^ 64) {E : Double F} {source psi psi' : Nat → Psi F} (h : JointSwept E K n T D source psi psi') :
    K.Swept n T D source psi psi' := by
  obtain ⟨sched, x0, k, w, ht, hproto, hS, hrun, hf⟩ := h
  have Q := cfg_linked (source := source) (psi0 := psi) H hn L hD hcons ht hs
  obtain ⟨s, hr, -, hall⟩ := joint_refines Q (block_ok E nG) (cfg_fits H L hm hA E source psi sched hS) rfl hproto hrun
  refine ⟨sched, s, ht, hr, fun r hlt => ⟨(hall r).1.1 (hf r hlt).1, ?_⟩⟩
  rw [← (hall r).2 (fun steps h => by rw [(hf r hlt).1] at h; cases h)]
  exact (hf r hlt).2

/-- C92: the values a sweep leaves in the flux arrays are, to the last bit, the ones given by the serial
mesh, the source and the compiled functions, whatever the interleaving of the single assignments of the
threads and of the single MPI calls of the ranks, the partition and the numbers of ranks and threads. -/
theorem joint_bitwise {S S' : Type} [LinearOrder S] [LinearOrder S'] {val : Nat → S} {val' : Nat → S'} {m : SerialMesh}
    {pv pv' : List Nat} {n' : Nat} {P P' : ParallelMesh} {T' : Nat → Mesh}
    {D' : Nat → Tables F} {source source' psi0 psi0' : Nat → Psi F} (H : Created m pv n P) (hn : n < uintMax) (L : Loaded val P T)
    (hD : Started K coord P T D) (H' : Created m pv' n' P') (hn' : n' < uintMax) (L' : Loaded val' P' T')
    (hD' : Started K coord P' T' D') (hcons : Spec.Consistent K coord m) (hs : ∀ r < n, nA * (T r).nCells < 2 ^ 64)
    (hs' : ∀ r < n', nA * (T' r).nCells < 2 ^ 64) (hm : m.faces.length ≤ 2 ^ 64) (hA : nA ≤ 2 ^ 64) {srcS : Psi F}
    (hsrc : Spec.Holds nA nG n T source srcS) (hsrc' : Spec.Holds nA nG n' T' source' srcS) {E E' : Double F}
    {psi psi' : Nat → Psi F} (h : JointSwept E K n T D source psi0 psi) (h' : JointSwept E' K n' T' D' source' psi0' psi') :
    ∃ psiS : Psi F, Spec.Solution K coord m srcS psiS ∧ Spec.Holds nA nG n T psi psiS ∧ Spec.Holds nA nG n' T' psi' psiS :=
  sweep_bitwise H hn L hD H' hn' L' hD' hcons hs hs' hsrc hsrc' (joint_swept H hn L hD hcons hs hm hA h)
    (joint_swept H' hn' L' hD' hcons hs' hm hA h')

/-- C92: such sweeps exist: on every partition, with every number of threads and every batch size for
which messages are short enough, every interleaving that goes on as long as it can returns on all
ranks, after a bounded number of statements and calls. -/
theorem joint_returns {S : Type} [LinearOrder S] {val : Nat → S} {m : SerialMesh} {pv : List Nat} {P : ParallelMesh}
    (H : Created m pv n P) (hn : n < uintMax) (L : Loaded val P T) (hD : Started K coord P T D)
    (hsort : Sorted K coord m) (hs : ∀ r < n, nA * (T r).nCells < 2 ^ 64) (hm : m.faces.length ≤ 2 ^ 64) (hA : nA ≤ 2 ^ 64)
    (E : Double F) (source psi0 : Nat → Psi F) (sched : Schedule F) (ht : 0 < sched.threads) (hb : 0 < sched.batch)
    (hproto : sched.protocol = .tycho) (hS : Short nA nG n T sched) (x0 : Threads.Scratch F nG) {k : Nat}
    {w : State (Psi F × Bound F) (Fin 3 → Fin nG → F) (Threads.Slice F) (Threads.Scratch F nG)}
    (h : Run (K.cfg n T D sched source psi0) (Threads.sweepSlices K n T D sched source psi0 x0) (blockCodec E nG) k w) :
    k ≤ jointBound (K.cfg n T D sched source psi0) (32 * nG + 10) ∧
    ((∃ r < n, (w.net.rank r).phase ≠ .finished) → ∃ w', Step (K.cfg n T D sched source psi0)
      (Threads.sweepSlices K n T D sched source psi0 x0) (blockCodec E nG) w w') ∧
    ¬ Wire.Fails (K.cfg n T D sched source psi0) (blockCodec E nG) w.net ∧
    ∃ psi, JointSwept E K n T D source psi0 psi := by
  obtain ⟨Q, hcr, hac⟩ := cfg_sorted H hn L hD hsort hs source psi0 sched ht
  have hK := Threads.sweep_pass_length (K := K) (n := n) (T := T) (D := D) sched source psi0 x0
  have hF := cfg_fits (K := K) (D := D) H L hm hA E source psi0 sched hS
  have hC := block_ok E nG
  refine ⟨joint_terminates Q hC hF rfl hproto hb hcr hac hK h, joint_no_deadlock Q hC hF rfl hproto h,
    joint_no_error Q hC hF rfl hproto h, ?_⟩
  obtain ⟨k', w', -, h', hf⟩ := joint_finishes Q hC hF rfl hproto hb hcr hac hK h
  exact ⟨fun r => (w'.net.rank r).data.1, sched, x0, k', w', ht, hproto, hS, h', fun r hr => ⟨hf r hr, rfl⟩⟩

end Verif.Joint
