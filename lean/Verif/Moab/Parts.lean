import Verif.Moab.Export
import Verif.MeshFile.Props

/-!
# C69: exporting a partitioned mesh
-/
set_option linter.unusedSectionVars false
set_option linter.unusedVariables false

namespace Verif.Moab

open Verif.MeshFile Verif.TychoMesh

variable {alloc : List Handle → Handle}

theorem createTet_tets (db : Db) (x : Fin 4 → Fin 3 → Nat) : ∃ t, (createTet alloc db x).tets = db.tets ++ [(alloc (db.tets.map (·.1)), t)] :=
  ⟨_, rfl⟩

theorem fold_pair (xs : List (Fin 4 → Fin 3 → Nat)) : ∀ (db : Db) (hs : List Handle),
    (xs.foldl (fun (s : Db × List Handle) x => (createTet alloc s.1 x, s.2 ++ [alloc (s.1.tets.map (·.1))])) (db, hs)).1 =
      xs.foldl (createTet alloc) db ∧
    ∃ ts, (xs.foldl (createTet alloc) db).tets = db.tets ++ ts ∧
      (xs.foldl (fun (s : Db × List Handle) x => (createTet alloc s.1 x, s.2 ++ [alloc (s.1.tets.map (·.1))])) (db, hs)).2 =
        hs ++ ts.map (·.1) := by
  induction xs with
  | nil => intro db hs; exact ⟨rfl, [], by simp⟩
  | cons x xs ih =>
    intro db hs
    obtain ⟨h1, ts, h2, h3⟩ := ih (createTet alloc db x) (hs ++ [alloc (db.tets.map (·.1))])
    obtain ⟨t, ht⟩ := createTet_tets (alloc := alloc) db x
    refine ⟨h1, (alloc (db.tets.map (·.1)), t) :: ts, ?_, ?_⟩
    · rw [List.foldl_cons, h2, ht, List.append_assoc]; rfl
    · rw [List.foldl_cons, h3, List.append_assoc]; rfl

theorem filter_suffix {α : Type} {a b : List α} {p : α → Bool} (ha : ∀ x ∈ a, p x = false) (hb : ∀ x ∈ b, p x = true) :
    (a ++ b).filter p = b := by
  rw [List.filter_append, List.filter_eq_nil_iff.2 fun x hx => by rw [ha x hx]; simp, List.filter_eq_self.2 hb, List.nil_append]

/-- The file of the cells `xs` that were added after `ys`. -/
theorem subset_exported {ys xs : List (Fin 4 → Fin 3 → Nat)} {db : Db} (E : Exported (ys ++ xs) db) {ts0 ts : List (Handle × (Fin 4 → Handle))}
    (e : db.tets = ts0 ++ ts) (hl : ts0.length = ys.length) : Exported xs (db.subset (ts.map (·.1))) := by
  have hnd := E.nodup_tets
  rw [e, List.map_append, List.nodup_append] at hnd
  have htets : db.tets.filter (fun y => decide (y.1 ∈ ts.map (·.1))) = ts := by
    rw [e]
    apply filter_suffix
    · intro x hx
      rw [decide_eq_false_iff_not]
      intro hm
      exact hnd.2.2 x.1 (List.mem_map.2 ⟨x, hx, rfl⟩) x.1 hm rfl
    · intro x hx
      rw [decide_eq_true_iff]
      exact List.mem_map.2 ⟨x, hx, rfl⟩
  have hlen : ts.length = xs.length := by
    have := E.numTets
    rw [e, List.length_append, List.length_append] at this
    omega
  -- the tetrahedron of a node
  have owner : ∀ (j : Nat) (x : Handle × (Fin 3 → Nat)), db.nodes[j]? = some x → ∃ (h : Handle) (t : Fin 4 → Handle),
      db.tets[j / 4]? = some (h, t) ∧ ∃ k, t k = x.1 := by
    intro j x hj
    have hlt := (List.getElem?_eq_some_iff.1 hj).1
    rw [E.numNodes] at hlt
    have hi : j / 4 < (ys ++ xs).length := by omega
    obtain ⟨h, t, h1, h2⟩ := E.cell (j / 4) _ (List.getElem?_eq_getElem hi)
    refine ⟨h, t, h1, ⟨j % 4, by omega⟩, ?_⟩
    have := h2 ⟨j % 4, by omega⟩
    rw [show 4 * (j / 4) + j % 4 = j by omega, hj, Option.some.injEq] at this
    rw [this]
  have hnodes : db.nodes.filter (fun x => db.tets.any fun y => decide (y.1 ∈ ts.map (·.1)) && decide (∃ k, y.2 k = x.1)) =
      db.nodes.drop (4 * ys.length) := by
    conv_lhs => rw [← List.take_append_drop (4 * ys.length) db.nodes]
    apply filter_suffix
    · intro x hx
      rw [List.any_eq_false]
      intro y hy hc
      rw [Bool.and_eq_true, decide_eq_true_iff, decide_eq_true_iff] at hc
      obtain ⟨hm, k, hk⟩ := hc
      obtain ⟨j, hj⟩ := List.mem_iff_getElem?.1 hx
      have hjlt : j < 4 * ys.length := by
        have := (List.getElem?_eq_some_iff.1 hj).1
        rw [List.length_take] at this
        omega
      rw [List.getElem?_take, if_pos hjlt] at hj
      obtain ⟨h, t, h1, k', hk'⟩ := owner j x hj
      have hy0 : (h, t) ∈ db.tets := List.mem_iff_getElem?.2 ⟨_, h1⟩
      have := (E.disjoint hy hy0 (k := k) (l := k') (hk.trans hk'.symm)).1
      subst this
      have hin : (h, t) ∈ ts0 := by
        rw [e, List.getElem?_append_left (by omega)] at h1
        exact List.mem_iff_getElem?.2 ⟨_, h1⟩
      exact hnd.2.2 h (List.mem_map.2 ⟨_, hin, rfl⟩) h hm rfl
    · intro x hx
      rw [List.any_eq_true]
      obtain ⟨j, hj⟩ := List.mem_iff_getElem?.1 hx
      rw [List.getElem?_drop] at hj
      obtain ⟨h, t, h1, k', hk'⟩ := owner _ x hj
      refine ⟨(h, t), List.mem_iff_getElem?.2 ⟨_, h1⟩, ?_⟩
      rw [Bool.and_eq_true, decide_eq_true_iff, decide_eq_true_iff]
      refine ⟨?_, k', hk'⟩
      rw [e, List.getElem?_append_right (by omega)] at h1
      exact List.mem_map.2 ⟨_, List.mem_iff_getElem?.2 ⟨_, h1⟩, rfl⟩
  have hsub : db.subset (ts.map (·.1)) = ⟨db.nodes.drop (4 * ys.length), [], ts⟩ := by
    rw [Db.subset, htets, hnodes]
  rw [hsub]
  exact
  { tris := rfl
    numTets := hlen
    numNodes := by
      rw [List.length_drop, E.numNodes, List.length_append]; omega
    nodeOrder := by
      rw [List.map_drop]; exact E.nodeOrder.sublist (List.drop_sublist _ _)
    tetOrder := by
      have := E.tetOrder
      rw [e, List.map_append] at this
      exact (List.pairwise_append.1 this).2.1
    cell := by
      intro i x hx
      obtain ⟨h, t, h1, h2⟩ := E.cell (ys.length + i) x (by rw [List.getElem?_append_right (by omega), Nat.add_sub_cancel_left]; exact hx)
      refine ⟨h, t, ?_, fun k => ?_⟩
      · rwa [e, List.getElem?_append_right (by omega), hl, Nat.add_sub_cancel_left] at h1
      · rw [List.getElem?_drop, ← h2 k]
        congr 1
        omega }

/-- The corners of the cells of a partition. -/
def partCorners (part : Part) : Option (List (Fin 4 → Fin 3 → Nat)) :=
  (firstN part.numCells part.cells).bind fun cells => cells.mapM fun d => corners (part.nodes.map (·.coords)) d.nodes

theorem addPart_eq (ha : Increasing alloc) {ys xs : List (Fin 4 → Fin 3 → Nat)} {db : Db} (E : Exported ys db) {part : Part}
    (hx : partCorners part = some xs) : ∃ db' hs, addPart alloc db part = some (db', hs) ∧ Exported (ys ++ xs) db' ∧
      Exported xs (db'.subset hs) := by
  unfold partCorners at hx
  obtain ⟨cells, h1, h2⟩ := Option.bind_eq_some_iff.1 hx
  obtain ⟨e1, ts, e2, e3⟩ := fold_pair (alloc := alloc) xs db []
  have E' := fold_exported ha xs ys db E
  refine ⟨_, _, ?_, E', subset_exported E' e2 E.numTets⟩
  unfold addPart
  rw [h1]
  simp only [Option.bind_eq_bind, Option.bind_some, h2]
  rw [Option.some.injEq]
  exact Prod.ext e1 (by rw [e3, List.nil_append])

/-- One file for each partition, with its cells. -/
theorem parts_files (ha : Increasing alloc) {P : ParallelMesh} (hn : P.numPartitions = P.parts.length)
    (hc : ∀ part ∈ P.parts, (partCorners part).isSome) :
    ∃ files, parallelToMoab alloc P = some files ∧
      List.Forall₂ (fun part file => ∃ xs, partCorners part = some xs ∧ Exported xs file) P.parts files := by
  have key : ∀ (ps : List Part), (∀ part ∈ ps, (partCorners part).isSome) → ∀ (ys : List (Fin 4 → Fin 3 → Nat)) (db : Db) (fs : List Db),
      Exported ys db → ∃ db' files, ps.foldlM (fun (s : Db × List Db) part =>
        (addPart alloc s.1 part).map fun a => (a.1, s.2 ++ [a.1.subset a.2])) (db, fs) = some (db', fs ++ files) ∧
        List.Forall₂ (fun part file => ∃ xs, partCorners part = some xs ∧ Exported xs file) ps files := by
    intro ps
    induction ps with
    | nil => intro _ ys db fs E; exact ⟨db, [], by simp, List.Forall₂.nil⟩
    | cons a ps ih =>
      intro h ys db fs E
      obtain ⟨xs, hx⟩ := Option.isSome_iff_exists.1 (h a (List.mem_cons_self ..))
      obtain ⟨db1, hs, e1, E1, E2⟩ := addPart_eq ha E hx
      obtain ⟨db', files, e3, e4⟩ := ih (fun part hp => h part (List.mem_cons_of_mem _ hp)) _ db1 (fs ++ [db1.subset hs]) E1
      refine ⟨db', db1.subset hs :: files, ?_, List.Forall₂.cons ⟨xs, hx, E2⟩ e4⟩
      rw [List.foldlM_cons, e1]
      simp only [Option.map_some, Option.bind_eq_bind, Option.bind_some]
      rw [e3, List.append_assoc]
      rfl
  obtain ⟨db', files, e1, e2⟩ := key P.parts hc [] _ [] empty_exported
  refine ⟨files, ?_, e2⟩
  unfold parallelToMoab
  rw [firstN, if_pos hn.le, hn, List.take_length]
  simp only [Option.bind_eq_bind, Option.bind_some, e1, List.nil_append]

theorem partCorners_of {part : Part} (hn : part.numCells = part.cells.length) (hc : ∀ c ∈ part.cells, ∀ k, c.nodes k < part.nodes.length) :
    ∃ xs, partCorners part = some xs ∧ xs.length = part.cells.length ∧
      ∀ (i : Nat) (c : PCell) (x : Fin 4 → Fin 3 → Nat), part.cells[i]? = some c → xs[i]? = some x →
        ∀ k, (part.nodes.map (·.coords))[c.nodes k]? = some (x k) := by
  have hx : ∃ xs, part.cells.mapM (fun d => corners (part.nodes.map (·.coords)) d.nodes) = some xs ∧
      List.Forall₂ (fun (d : PCell) (x : Fin 4 → Fin 3 → Nat) => ∀ k, (part.nodes.map (·.coords))[d.nodes k]? = some (x k)) part.cells xs := by
    generalize part.cells = l at hc
    induction l with
    | nil => exact ⟨[], rfl, List.Forall₂.nil⟩
    | cons a l ih =>
      obtain ⟨xs, h1, h2⟩ := ih fun d hd => hc d (List.mem_cons_of_mem _ hd)
      have ha := hc a (List.mem_cons_self ..)
      have hk : ∀ k, (part.nodes.map (·.coords))[a.nodes k]? = some ((part.nodes[a.nodes k]'(ha k)).coords) := fun k => by
        rw [List.getElem?_map, List.getElem?_eq_getElem (ha k)]; rfl
      refine ⟨(fun k => (part.nodes[a.nodes k]'(ha k)).coords) :: xs, ?_, List.Forall₂.cons hk h2⟩
      rw [List.mapM_cons, corners_iff.2 hk, h1]
      rfl
  obtain ⟨xs, h1, h2⟩ := hx
  refine ⟨xs, ?_, h2.length_eq.symm, fun i c x hi hx => ?_⟩
  · rw [partCorners, firstN, if_pos hn.le, hn, List.take_length]; exact h1
  · obtain ⟨a1, rfl⟩ := List.getElem?_eq_some_iff.1 hi
    obtain ⟨b1, rfl⟩ := List.getElem?_eq_some_iff.1 hx
    exact h2.get a1 b1

/-- Membership by position in an increasing list. -/
theorem filter_pos {p : Nat → Bool} {n c : Nat} (hc : c < n) (hp : p c = true) :
    ((List.range n).filter p)[((List.range c).filter p).length]? = some c := by
  have e : List.range n = List.range c ++ c :: (List.range (n - c - 1)).map (fun i => c + (i + 1)) := by
    conv_lhs => rw [show n = c + ((n - c - 1) + 1) by omega]
    rw [List.range_add, List.range_succ_eq_map, List.map_cons, List.map_map]
    rfl
  rw [e, List.filter_append, List.filter_cons_of_pos hp, List.getElem?_append_right (by omega), Nat.sub_self]
  rfl

/-- C69: the files of a partitioned mesh show every cell of the serial mesh once: in the file of its partition, at
the position of the cell among the cells of the partition, at the places of its nodes. A file has as many
tetrahedra as the partition has cells. -/
theorem export_parts (ha : Increasing alloc) {m : SerialMesh} {pv : List Nat} {n : Nat} {P : ParallelMesh}
    (h : createFromSerialMesh m pv n = some P) : ∃ files, parallelToMoab alloc P = some files ∧ files.length = n ∧
      (∀ (p : Nat) (file : Db), files[p]? = some file →
        file.tets.length = ((List.range m.numCells).filter fun c => pv[c]? = some p).length ∧ (file.nodes.map (·.1)).Nodup) ∧
      ∀ (c p : Nat) (d : SCell), c < m.numCells → m.cells[c]? = some d → pv[c]? = some p → ∃ file y, files[p]? = some file ∧
        file.tets[((List.range c).filter fun c => pv[c]? = some p).length]? = some y ∧
        ∀ k, ∃ x, (y.2 k, x) ∈ file.nodes ∧ m.nodes[d.nodes k]? = some ⟨x⟩ := by
  obtain ⟨h1, h2, h3, h4, h5, h6, h7, h8⟩ := create_parts h
  have hcc := (create_cells h).2
  have hrange : ∀ part ∈ P.parts, ∀ c ∈ part.cells, ∀ k, c.nodes k < part.nodes.length := by
    intro part hp c hc k
    obtain ⟨p, hp⟩ := List.mem_iff_getElem?.1 hp
    obtain ⟨d, -, -, -, hv⟩ := (create_connectivity h hp).1 c hc
    obtain ⟨v, hv, -⟩ := hv k
    exact (List.getElem?_eq_some_iff.1 hv).1
  have hpc : ∀ part ∈ P.parts, ∃ xs, partCorners part = some xs ∧ xs.length = part.cells.length ∧
      ∀ (i : Nat) (c : PCell) (x : Fin 4 → Fin 3 → Nat), part.cells[i]? = some c → xs[i]? = some x →
        ∀ k, (part.nodes.map (·.coords))[c.nodes k]? = some (x k) := fun part hp => by
    obtain ⟨p, hp'⟩ := List.mem_iff_getElem?.1 hp
    exact partCorners_of (hcc p part hp').1 (hrange part hp)
  obtain ⟨files, f1, f2⟩ := parts_files ha (h5.trans h6.symm) fun part hp => by
    obtain ⟨xs, hx, -⟩ := hpc part hp
    rw [hx]; rfl
  have hfile : ∀ (p : Nat) (file : Db), files[p]? = some file → ∃ part, P.parts[p]? = some part ∧
      ∃ xs, partCorners part = some xs ∧ Exported xs file := by
    intro p file hf
    obtain ⟨b1, rfl⟩ := List.getElem?_eq_some_iff.1 hf
    have a1 : p < P.parts.length := by rw [f2.length_eq]; exact b1
    exact ⟨_, List.getElem?_eq_getElem a1, f2.get a1 b1⟩
  refine ⟨files, f1, by rw [← f2.length_eq, h6], ?_, ?_⟩
  · intro p file hf
    obtain ⟨part, hp, xs, hx, E⟩ := hfile p file hf
    obtain ⟨xs', hx', hl, -⟩ := hpc part (List.mem_iff_getElem?.2 ⟨_, hp⟩)
    rw [hx, Option.some.injEq] at hx'
    subst hx'
    exact ⟨by rw [E.numTets, hl, ← (hcc p part hp).2, List.length_map], E.nodup_nodes⟩
  · intro c p d hc hd hpv
    have hpn : p < files.length := by
      rw [← f2.length_eq, h6]
      exact h3 p (List.mem_iff_getElem?.2 ⟨_, hpv⟩)
    obtain ⟨part, hp, xs, hx, E⟩ := hfile p _ (List.getElem?_eq_getElem hpn)
    obtain ⟨xs', hx', hl, hcor⟩ := hpc part (List.mem_iff_getElem?.2 ⟨_, hp⟩)
    rw [hx, Option.some.injEq] at hx'
    subst hx'
    have hpos := filter_pos (p := fun c => decide (pv[c]? = some p)) hc (by simpa using hpv)
    rw [← (hcc p part hp).2, List.getElem?_map, Option.map_eq_some_iff] at hpos
    obtain ⟨cell, hcell, hg⟩ := hpos
    have hi : ((List.range c).filter fun c => pv[c]? = some p).length < xs.length := by
      rw [hl]; exact (List.getElem?_eq_some_iff.1 hcell).1
    obtain ⟨hh, t, e1, e2⟩ := E.cell _ _ (List.getElem?_eq_getElem hi)
    refine ⟨_, (hh, t), List.getElem?_eq_getElem hpn, e1, fun k => ⟨_, List.mem_iff_getElem?.2 ⟨_, e2 k⟩, ?_⟩⟩
    have hx := hcor _ _ _ hcell (List.getElem?_eq_getElem hi) k
    obtain ⟨q1, -, q3, -⟩ := create_connectivity h hp
    obtain ⟨d', hd', -, -, hv⟩ := q1 cell (List.mem_iff_getElem?.2 ⟨_, hcell⟩)
    rw [hg, hd, Option.some.injEq] at hd'
    subst hd'
    obtain ⟨v, hv, hvg⟩ := hv k
    obtain ⟨dn, hdn, hco⟩ := q3 v (List.mem_iff_getElem?.2 ⟨_, hv⟩)
    rw [List.getElem?_map, hv, Option.map_some, Option.some.injEq] at hx
    rw [hvg] at hdn
    rw [hdn, ← hx, hco]

end Verif.Moab
