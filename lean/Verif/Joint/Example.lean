import Verif.Joint.Sweep
import Verif.Threads.Example
import Verif.Wire.Example

/-! # A sweep of machine words, statement by statement and call by call -/

namespace Verif.Joint

open Verif.MeshFile Verif.TychoMesh Verif.Traverse Verif.Floating Verif.Floating.Spec Verif.Program

/-- Words of eight bytes. -/
def wordBytes : Double UInt64 where
  enc x := Verif.Bytes.enc64 x.toNat
  dec l := UInt64.ofNat (Verif.Bytes.dec l)
  len x := Verif.Bytes.enc_length 8 _
  dec_enc x := by rw [Verif.Bytes.dec_enc64 x.toNat_lt]; exact UInt64.ofNat_toNat

/-- The kernel of `Verif.Floating.Example` with arithmetic in words, where products with normals are kept
as their sign only. -/
def wordKernel : Kernel UInt64 2 2 where
  zero := 0
  volume p := p 0 0
  area q := q 0 0
  omegaDotN a q p := (crude.omegaDotN a (fun j k => ((q j k).toNat : Int)) fun v k => ((p v k).toNat : Int)).map fun x =>
    if 0 < x then 1 else 0
  positive x := x != 0
  sigmaT1 := 3
  sigmaS1 := 1
  sigmaT2 := 5
  sigmaS2 := 2
  source a x sT sS := x 0 / 3 + sT * UInt64.ofNat a + sS
  solve vol area dots sT c2f inc src v g := (src v g + vol) / 7 + inc (c2f 0 v) 0 g * 3 + inc 1 1 g / 2 + dots 0 * sT + area 2
  toPhi psi := psi 0 / 5 + psi 1
  total s sS phi := s + sS * phi

def wordCoord (b : Nat) : UInt64 := UInt64.ofNat b

theorem word_small : ∀ nd ∈ twoMesh.nodes, ∀ k, nd.coords k < 2 ^ 64 := by decide

theorem word_position {i : Nat} {x : Fin 3 → UInt64} (h : Position wordCoord twoMesh i x) :
    Position crudeCoord twoMesh i fun k => ((x k).toNat : Int) := by
  obtain ⟨nd, h1, rfl⟩ := h
  refine ⟨nd, h1, ?_⟩
  funext k
  have := word_small nd (List.mem_of_getElem? h1) k
  simp only [wordCoord, crudeCoord, UInt64.toNat_ofNat']
  rw [Nat.mod_eq_of_lt this]

theorem word_cell {c : Nat} {p : Fin 4 → Fin 3 → UInt64} (h : CellPoints wordCoord twoMesh c p) :
    CellPoints crudeCoord twoMesh c fun v k => ((p v k).toNat : Int) := by
  obtain ⟨d, h1, h2⟩ := h
  exact ⟨d, h1, fun v => word_position (h2 v)⟩

theorem word_face {c : Nat} {f : Fin 4} {q : Fin 3 → Fin 3 → UInt64} (h : FacePoints wordCoord twoMesh c f q) :
    FacePoints crudeCoord twoMesh c f fun j k => ((q j k).toNat : Int) := by
  obtain ⟨g, e, h1, h2, h3⟩ := h
  exact ⟨g, e, h1, h2, fun k => word_position (h3 k)⟩

theorem word_dot {a c : Nat} {f : Fin 4} {x : UInt64} (h : Dot wordKernel wordCoord twoMesh a c f x) :
    ∃ x', Dot crude crudeCoord twoMesh a c f x' ∧ wordKernel.positive x = crude.positive x' := by
  obtain ⟨q, p, h1, h2, h3⟩ := h
  obtain ⟨x', h4, rfl⟩ := Option.map_eq_some_iff.1 h3
  refine ⟨x', ⟨_, _, word_face h1, word_cell h2, h4⟩, ?_⟩
  by_cases hx : 0 < x'
  · simp [wordKernel, crude, hx]
  · simp [wordKernel, crude, hx]

theorem word_dots : ∀ c f q p, FacePoints wordCoord twoMesh c f q → CellPoints wordCoord twoMesh c p →
    ∀ a < 2, ∃ x, wordKernel.omegaDotN a q p = some x := by
  intro c f q p h1 h2 a ha
  obtain ⟨x, hx⟩ := crude_dots c f _ _ (word_face h1) (word_cell h2) a ha
  exact ⟨_, by simp only [wordKernel, hx, Option.map_some]; rfl⟩

theorem word_sorted : Sorted wordKernel wordCoord twoMesh := by
  have hs := crude_sorted
  refine ⟨?_, ?_, ?_⟩
  · intro c f c' f' h a ha x x' hx hx' hp
    obtain ⟨y, hy, e⟩ := word_dot hx
    obtain ⟨y', hy', e'⟩ := word_dot hx'
    rw [e']
    exact hs.consistent c f c' f' h a ha y y' hy hy' (e ▸ hp)
  · intro c f c' f' h a ha x x' hx hx' hp
    obtain ⟨y, hy, e⟩ := word_dot hx
    obtain ⟨y', hy', e'⟩ := word_dot hx'
    rw [e']
    exact hs.crossed c f c' f' h a ha y y' hy hy' (e ▸ hp)
  · intro a ha c h
    refine hs.acyclic a ha c (h.lift id ?_)
    rintro c c' ⟨f, f', x, h1, h2, h3⟩
    obtain ⟨y, hy, e⟩ := word_dot h2
    exact ⟨f, f', y, h1, hy, e ▸ h3⟩

/-- The hypotheses of C92 hold for two tetrahedra on two ranks with three threads each, sends that
complete only when received, and arithmetic of eight-byte words. -/
example : ∃ (P : ParallelMesh) (T : Nat → Mesh) (D : Nat → Tables UInt64) (psi : Nat → Psi UInt64),
    Created twoMesh [1, 0] 2 P ∧ Loaded (id : Nat → Nat) P T ∧ Started wordKernel wordCoord P T D ∧
    Consistent wordKernel wordCoord twoMesh ∧ twoMesh.faces.length ≤ 2 ^ 64 ∧
    JointSwept wordBytes wordKernel 2 T D (fun _ _ _ _ _ => 1) (fun _ _ _ _ _ => 5) psi := by
  obtain ⟨P, H⟩ := created_of twoMesh_tets (by decide) (by decide) (pv := [1, 0]) (n := 2) rfl (by decide) (by decide)
  obtain ⟨T, L⟩ := load_succeeds (id : Nat → Nat) H
  obtain ⟨D, hD⟩ := Floating.started_exists (K := wordKernel) (coord := wordCoord) H L crude_material word_dots
  have s1 : ∀ r < 2, 2 * (T r).nCells < 2 ^ 64 := by
    intro r hr
    have hl := (create_cells H.create).1
    have hp : P.parts[r]? = some P.parts[r] := List.getElem?_eq_getElem (by omega)
    have h1 := (loaded_cells H L hp).1
    have h2 := part_le H hp
    have h3 := ((create_cells H.create).2 r _ hp).1
    have : twoMesh.numCells = 2 := rfl
    omega
  have hS : Short 2 2 2 T (⟨3, 5, .tycho, true, fun _ c _ => c, fun _ _ _ _ _ => 3⟩ : Schedule UInt64) := by
    intro r _ q
    refine lt_of_le_of_lt (Nat.mul_le_mul_left _ (min_le_right _ _)) ?_
    norm_num
  have hr := joint_returns H (by decide) L hD word_sorted s1 (by decide) (by decide) wordBytes (fun _ _ _ _ _ => 1)
    (fun _ _ _ _ _ => 5) ⟨3, 5, .tycho, true, fun _ c _ => c, fun _ _ _ _ _ => 3⟩ (by decide) (by decide) rfl hS
    ⟨fun _ _ => 1, fun _ _ => 2, fun _ _ => 3, fun _ _ _ => 4⟩ Run.init
  obtain ⟨psi, h⟩ := hr.2.2.2
  exact ⟨P, T, D, psi, H, L, hD, word_sorted.consistent, by decide, h⟩

/-- A word for each angle: `update` changes it, `getData` sends it, what is received is added. -/
def wordData : TraverseData (Nat → UInt64) UInt64 :=
  ⟨fun _ _ a d => d a, fun _ a b d => setAt d a (d a + b), fun _ _ _ => 0, fun _ a _ _ d => setAt d a (d a * 3 + 1)⟩

/-- The two ranks of `Verif.Traverse.FairExample` with two threads each. -/
def wordCfg : Cfg (Nat → UInt64) UInt64 where
  nRanks := 2
  nAngles := 2
  nThreads := 2
  maxCompute := 1
  direction := .forward
  doComm := true
  protocol := .tycho
  rendezvous := true
  mesh := capCfg.mesh
  data _ := wordData
  init _ := fun _ => 5

def wordSlices : Threads.Slices wordCfg UInt64 UInt64 where
  get d a := d a
  set d a e := setAt d a e
  get_set_same _ _ _ := setAt_same _ _ _
  get_set_ne _ _ _ _ h := setAt_ne _ _ h
  ext _ _ h := funext h
  parts _ _ _ := [fun e _ => (e, e * 3), fun _ x => (x + 1, x)]
  update_eq r c a d x := rfl
  face _ _ _ _ := [fun e _ => (e, e)]
  read x := x
  face_eq r c f a d x := ⟨rfl, rfl⟩
  prio_eq r c a d d' _ := rfl
  scratch := 7

def wordCodec : Wire.Codec UInt64 := ⟨8, wordBytes.enc, wordBytes.dec⟩

theorem wordCodec_ok : wordCodec.Ok := ⟨wordBytes.len, wordBytes.dec_enc⟩

theorem word_linked : Linked wordCfg exMate :=
  have L := buf_linked
  ⟨by decide, L.size, L.mate_in, L.mate_symm, L.near, L.far, L.ext, L.side_eq, L.side_cell, L.side_inj, L.orient⟩

theorem word_fits : Wire.Fits wordCfg wordCodec where
  sides x _ := Wire.wire_fits.sides x ‹_›
  angles := by decide
  bytes r _ q := by
    refine lt_of_le_of_lt (Nat.mul_le_mul_left _ (min_le_right _ _)) ?_
    decide

/-- The conditions of `joint_finishes` hold. -/
example : ∃ n w, Run wordCfg wordSlices wordCodec n w ∧ (∀ r < 2, (w.net.rank r).phase = .finished) ∧
    n ≤ jointBound wordCfg 14 ∧ w.net.log.countP (fun e => e.task = some (1, 0, 0)) = 1 ∧ ∀ g, w.pc 1 g = .idle := by
  have hK : ∀ r t, (Threads.passOps wordSlices r t).length ≤ 14 :=
    Threads.passOps_length wordSlices (k := 1) (m := 2) (fun _ _ _ _ => le_rfl) (fun _ _ _ => le_rfl)
  obtain ⟨n, w, -, h, hf⟩ := joint_finishes word_linked wordCodec_ok word_fits rfl rfl (by decide) buf_crossed buf_acyclic hK
    Run.init
  exact ⟨n, w, h, hf, joint_terminates word_linked wordCodec_ok word_fits rfl rfl (by decide) buf_crossed buf_acyclic hK h,
    (joint_once_in_order word_linked wordCodec_ok word_fits rfl rfl h).2.2 1 (by decide) (hf 1 (by decide)) 0 (by decide) 0
      (by decide), ((joint_quiet word_linked wordCodec_ok word_fits rfl rfl h hf).2 1 (by decide)).2.2⟩

/-- Rank 0 has announced 24 bytes and not yet sent them while a thread of rank 1 is in the middle of
`update`. -/
example : ∃ n w, Run wordCfg wordSlices wordCodec n w ∧ w.net.sizes 0 1 = [24] ∧ w.net.datas 0 1 = [] ∧ w.net.ops 0 ≠ [] ∧
    (w.net.rank 1).data 1 = 5 ∧ w.scratch 1 1 = 15 ∧ ∃ t o ops, w.pc 1 1 = .running t (o :: ops) := by
  have s1 := Run.step .init (Step.inner (C := wordCodec) (w := initState wordCfg wordSlices)
    (.pop _ 1 1 (fun _ => 0) [] [] ⟨0, 1, 0⟩ (by decide) (by decide) rfl rfl rfl (by decide) (by decide)))
  have s2 := Run.step s1 (Step.inner (.pop _ 0 0 (fun _ => 0) [] [] ⟨0, 0, 0⟩ (by decide) (by decide) rfl rfl rfl (by decide)
    (by decide)))
  have s3 := Run.step s2 (Step.inner (.count _ 0 0 ⟨0, 0, 0⟩ [] [] (by decide) (by decide) rfl))
  have s4 := Run.step s3 (Step.inner (.op _ 0 0 ⟨0, 0, 0⟩ _ _ (by decide) (by decide) rfl))
  have s5 := Run.step s4 (Step.inner (.count _ 1 1 ⟨0, 1, 0⟩ [] [] (by decide) (by decide) rfl))
  have s6 := Run.step s5 (Step.inner (.op _ 0 0 ⟨0, 0, 0⟩ _ _ (by decide) (by decide) rfl))
  have s7 := Run.step s6 (Step.inner (.op _ 0 0 ⟨0, 0, 0⟩ _ _ (by decide) (by decide) rfl))
  have s8 := Run.step s7 (Step.inner (.op _ 0 0 ⟨0, 0, 0⟩ _ _ (by decide) (by decide) rfl))
  have s9 := Run.step s8 (Step.inner (.done _ 0 0 ⟨0, 0, 0⟩ (by decide) (by decide) rfl))
  have s10 := Run.step s9 (Step.inner (.op _ 1 1 ⟨0, 1, 0⟩ _ _ (by decide) (by decide) rfl))
  have s11 := Run.step s10 (Step.call 0 _ (by decide) (fun g hg => by
    have hg : g < 2 := hg
    interval_cases g <;> rfl) (.begin (setAt (fun _ => 0) 0 1) rfl (fun g hg => by
    have hg : g < 2 := hg
    interval_cases g
    · right; decide
    · left; rfl)))
  have s12 := Run.step s11 (Step.call 0 _ (by decide) (fun g hg => by
    have hg : g < 2 := hg
    interval_cases g <;> rfl) (.isendSize 1 24 _ rfl))
  exact ⟨_, _, s12, rfl, rfl, List.cons_ne_nil _ _, rfl, rfl, _, _, _, rfl⟩

end Verif.Joint
