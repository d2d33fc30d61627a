import Verif.Threads.Sweep
import Verif.Traverse.FairExample
import Verif.Floating.Example

/-! # Two threads in their passes at once -/

namespace Verif.Threads

open Verif.MeshFile Verif.TychoMesh Verif.Traverse Verif.Floating Verif.Program

/-- A data object that keeps a list for each angle: `update` appends the length of the list, `getData`
sends it, what is received is appended. -/
def listData : TraverseData (Nat → List Nat) Nat :=
  ⟨fun _ _ a d => (d a).length, fun _ a b d => setAt d a (d a ++ [b]), fun _ _ _ => 0,
    fun _ a _ _ d => setAt d a (d a ++ [(d a).length])⟩

/-- The two ranks of `Verif.Traverse.FairExample` with two threads each. -/
def threadCfg : Cfg (Nat → List Nat) Nat where
  nRanks := 2
  nAngles := 2
  nThreads := 2
  maxCompute := 1
  direction := .forward
  doComm := true
  protocol := .tycho
  rendezvous := true
  mesh := capCfg.mesh
  data _ := listData
  init _ := fun _ => []

/-- One rank with one cell without neighbours. -/
def loneCfg : Cfg (Nat → List Nat) Nat :=
  { threadCfg with
    nRanks := 1
    mesh := fun _ => { capCfg.mesh 0 with adjRank := fun _ _ => none } }

/-- `update` computes the length into the scratch memory of the thread and then appends it. -/
def listSlices (cfg : Cfg (Nat → List Nat) Nat) (h : ∀ r, cfg.data r = listData) : Slices cfg (List Nat) Nat where
  get d a := d a
  set d a e := setAt d a e
  get_set_same _ _ _ := setAt_same _ _ _
  get_set_ne _ _ _ _ h := setAt_ne _ _ h
  ext _ _ h := funext h
  parts _ _ _ := [fun e _ => (e, e.length), fun e x => (e ++ [x], x)]
  update_eq r c a d x := by rw [h]; rfl
  face _ _ _ _ := [fun e _ => (e, e.length)]
  read x := x
  face_eq r c f a d x := by rw [h]; exact ⟨rfl, rfl⟩
  prio_eq r c a d d' _ := by rw [h]; rfl
  scratch := 7

def threadSlices : Slices threadCfg (List Nat) Nat := listSlices threadCfg fun _ => rfl
def loneSlices : Slices loneCfg (List Nat) Nat := listSlices loneCfg fun _ => rfl

theorem thread_linked : Linked threadCfg exMate :=
  have L := buf_linked
  ⟨by decide, L.size, L.mate_in, L.mate_symm, L.near, L.far, L.ext, L.side_eq, L.side_cell, L.side_inj, L.orient⟩

theorem thread_crossed : Crossed threadCfg exMate := buf_crossed
theorem thread_acyclic : Acyclic threadCfg exMate := buf_acyclic

/-- The hypotheses of C91 hold: an execution returns on both ranks, with both tasks of each done. -/
example : ∃ n w, Run threadCfg threadSlices n w ∧ (∀ r < 2, (w.rank r).phase = .finished) ∧
    n ≤ statementBound threadCfg 14 ∧ w.log.countP (fun e => e.task = some (1, 0, 0)) = 1 := by
  have hK : ∀ r t, (passOps threadSlices r t).length ≤ 14 :=
    passOps_length threadSlices (k := 1) (m := 2) (fun _ _ _ _ => le_rfl) (fun _ _ _ => le_rfl)
  obtain ⟨n, w, -, h, hf⟩ := threads_finish thread_linked (by decide) (fun _ => rfl) thread_crossed thread_acyclic hK
    Run.init (statementBound threadCfg 14) (by omega)
  exact ⟨n, w, h, hf, threads_terminate thread_linked (by decide) (fun _ => rfl) thread_crossed thread_acyclic hK h,
    (threads_once_in_order thread_linked h).2.2 1 (by decide) (hf 1 (by decide)) 0 (by decide) 0 (by decide)⟩

/-- Both threads of a rank are in the middle of `update`: thread 1 has computed the length and not yet
appended it, thread 0 has appended. The next statement of thread 1 touches its own list and scratch
memory. -/
example : ∃ n w, Run loneCfg loneSlices n w ∧ (w.rank 0).data 0 = [0] ∧ (w.rank 0).data 1 = [] ∧
    w.scratch 0 1 = 0 ∧ (∃ t ops o, w.pc 0 1 = .running t (o :: ops) ∧ o.touches 1 (.slice 1)) ∧
    (∃ t ops, w.pc 0 0 = .running t ops) ∧ (w.rank 0).remaining = 0 := by
  have s1 := Run.step .init (.inner <| Inner.pop (S := loneSlices) (initState loneCfg loneSlices) 0 0 (fun _ => 0) [] []
    ⟨0, 0, 0⟩ (by decide) (by decide) rfl rfl rfl (by decide) (by decide))
  have s2 := Run.step s1 (.inner <| Inner.pop (S := loneSlices) _ 0 1 _ [] []
    ⟨0, 1, 0⟩ (by decide) (by decide) rfl rfl rfl (by decide) (by decide))
  have s3 := Run.step s2 (.inner <| Inner.count (S := loneSlices) _ 0 1 ⟨0, 1, 0⟩ [] [] (by decide) (by decide) rfl)
  have s4 := Run.step s3 (.inner <| Inner.op (S := loneSlices) _ 0 1 ⟨0, 1, 0⟩ _ _ (by decide) (by decide) rfl)
  have s5 := Run.step s4 (.inner <| Inner.count (S := loneSlices) _ 0 0 ⟨0, 0, 0⟩ [] [] (by decide) (by decide) rfl)
  have s6 := Run.step s5 (.inner <| Inner.op (S := loneSlices) _ 0 0 ⟨0, 0, 0⟩ _ _ (by decide) (by decide) rfl)
  have s7 := Run.step s6 (.inner <| Inner.op (S := loneSlices) _ 0 0 ⟨0, 0, 0⟩ _ _ (by decide) (by decide) rfl)
  exact ⟨_, _, s7, rfl, rfl, rfl, ⟨_, _, _, rfl, Or.inl rfl⟩, ⟨_, _, rfl⟩, rfl⟩

/-- The hypotheses of `fine_bitwise` and `fine_returns` hold for two tetrahedra on two ranks with three
threads each and the crude arithmetic, the scratch arrays holding anything at first. -/
example : ∃ (P : ParallelMesh) (T : Nat → Mesh) (D : Nat → Tables Int) (psi : Nat → Psi Int),
    Created twoMesh [1, 0] 2 P ∧ Loaded (id : Nat → Nat) P T ∧ Started crude crudeCoord P T D ∧
    Floating.Spec.Consistent crude crudeCoord twoMesh ∧ FineSwept crude 2 T D (fun _ _ _ _ _ => 1) (fun _ _ _ _ _ => 5) psi := by
  obtain ⟨P, H⟩ := created_of twoMesh_tets (by decide) (by decide) (pv := [1, 0]) (n := 2) rfl (by decide) (by decide)
  obtain ⟨T, L⟩ := load_succeeds (id : Nat → Nat) H
  obtain ⟨D, hD⟩ := Floating.started_exists (K := crude) (coord := crudeCoord) H L crude_material crude_dots
  have s1 : ∀ r < 2, 2 * (T r).nCells < 2 ^ 64 := by
    intro r hr
    have hl := (create_cells H.create).1
    have hp : P.parts[r]? = some P.parts[r] := List.getElem?_eq_getElem (by omega)
    have h1 := (loaded_cells H L hp).1
    have h2 := part_le H hp
    have h3 := ((create_cells H.create).2 r _ hp).1
    have : twoMesh.numCells = 2 := rfl
    omega
  have hr := fine_returns H (by decide) L hD crude_sorted s1 (fun _ _ _ _ _ => 1) (fun _ _ _ _ _ => 5)
    ⟨3, 5, .tycho, false, fun _ c _ => c, fun _ _ _ _ _ => 3⟩ (by decide) (by decide) rfl
    ⟨fun _ _ => 1, fun _ _ => 2, fun _ _ => 3, fun _ _ _ => 4⟩ Run.init
  obtain ⟨psi, h⟩ := hr.2.2
  exact ⟨P, T, D, psi, H, L, hD, crude_sorted.consistent, h⟩

end Verif.Threads
