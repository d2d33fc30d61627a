import Verif.MeshFile.Props2
import Mathlib.Data.List.Nodup

/-!
# The offset table and parallel reading (C11)
-/
namespace Verif.MeshFile

open Verif.Bytes

/-! ### The created mesh can be written -/

theorem sorted_length {l : List Nat} {N : Nat} (h : l.Pairwise (· < ·)) (hl : ∀ x ∈ l, x < N) : l.length ≤ N := by
  have hnd : l.Nodup := h.imp fun hab => Nat.ne_of_lt hab
  have := (hnd.subperm (l₂ := List.range N) fun x hx => List.mem_range.2 (hl x hx)).length_le
  simpa using this

theorem offsetsFrom_length (s : Nat) (ps : List Part) : (offsetsFrom s ps).length = ps.length + 1 := by
  induction ps generalizing s with
  | nil => rfl
  | cons p ps ih => rw [offsetsFrom, List.length_cons, ih, List.length_cons]

theorem offsetsFrom_lt (s : Nat) (ps : List Part) (h : s < 2 ^ 64) : ∀ o ∈ offsetsFrom s ps, o < 2 ^ 64 := by
  induction ps generalizing s with
  | nil => simpa [offsetsFrom] using h
  | cons p ps ih =>
    intro o ho
    rw [offsetsFrom, List.mem_cons] at ho
    rcases ho with rfl | ho
    · exact h
    · exact ih _ (Nat.mod_lt _ (by norm_num)) o ho

theorem createSide_cases {pv : List Nat} {co : Nat → List Nat} {p g c q : Nat} {t : Option Nat}
    (h : createSide pv co p g = some (c, q, t)) : t = none ∨ t = some 0 ∨ t = some 1 := by
  unfold createSide at h
  split at h
  · simp only [Option.some.injEq, Prod.mk.injEq] at h; tauto
  · simp only [Option.bind_eq_bind, Option.bind_eq_some_iff] at h
    obtain ⟨q', -, h⟩ := h
    split at h <;> simp only [Option.bind_eq_some_iff, Option.some.injEq, Prod.mk.injEq] at h <;>
      obtain ⟨_, -, -, -, rfl⟩ := h <;> simp

theorem create_types {m : SerialMesh} {pv : List Nat} {n : Nat} {P : ParallelMesh}
    (h : createFromSerialMesh m pv n = some P) {p : Nat} {part : Part} (hp : P.parts[p]? = some part) :
    ∀ f ∈ part.faces, f.boundaryType < 3 := by
  obtain ⟨-, -, -, -, -, -, -, h8⟩ := create_parts h
  have M := createPart_made (h8 p part hp).2
  intro f hf
  obtain ⟨i, hi⟩ := List.mem_iff_getElem?.1 hf
  obtain ⟨g, hg, hgf⟩ := forall₂_get' M.faces hi
  obtain ⟨-, e, t0, t1, -, s0, s1, ht, -⟩ := createFace_iff.1 hgf
  rcases createSide_cases s0 with rfl | rfl | rfl <;> rcases createSide_cases s1 with rfl | rfl | rfl <;>
    simp [ht]

/-- The mesh made by `createFromSerialMesh` fits its format. -/
theorem create_ok {m : SerialMesh} (hm : m.OK) (hc : m.numCells * 10 < 2 ^ 64) (hf : m.numFaces * 9 < 2 ^ 64)
    (hn : m.numNodes * 4 < 2 ^ 64) {pv : List Nat} {n : Nat} {P : ParallelMesh}
    (h : createFromSerialMesh m pv n = some P) : P.OK := by
  obtain ⟨h1, h2, h3, h4, h5, h6, h7, h8⟩ := create_parts h
  refine ⟨by omega, by rw [h7, offsetsFrom_length]; omega, by omega, ?_, ?_⟩
  · rw [h7]; exact offsetsFrom_lt _ _ (by omega)
  · intro part hpm
    obtain ⟨p, hp⟩ := List.mem_iff_getElem?.1 hpm
    obtain ⟨k1, k2, k3, k4, k5, k6, k7, k8, k9⟩ := create_connectivity h hp
    have M := createPart_made (h8 p part hp).2
    have lc : ∀ q, (cellsIn (entries m pv) q).length ≤ m.numCells := fun q =>
      sorted_length (cellsIn_sorted _ _) fun x hx => by rw [cellsIn_eq h2] at hx; simp at hx; exact hx.1
    have lc' : part.cells.length ≤ m.numCells := by rw [← M.cells.length_eq]; exact lc p
    have lf : part.faces.length ≤ m.numFaces := by
      rw [← List.length_map PFace.globalID]
      refine sorted_length k5 fun x hx => ?_
      obtain ⟨f, hf, rfl⟩ := List.mem_map.1 hx
      obtain ⟨d, hd, -⟩ := k2 f hf
      rw [hm.faces]; exact (List.getElem?_eq_some_iff.1 hd).1
    have ln : part.nodes.length ≤ m.numNodes := by
      rw [← List.length_map PNode.globalID]
      refine sorted_length k6 fun x hx => ?_
      obtain ⟨f, hf, rfl⟩ := List.mem_map.1 hx
      obtain ⟨d, hd, -⟩ := k3 f hf
      rw [hm.nodes]; exact (List.getElem?_eq_some_iff.1 hd).1
    refine ⟨k7, k8, k9, by omega, by omega, by omega, ?_, ?_, ?_⟩
    · intro c hc
      obtain ⟨d, hd, hmat, hfs, hns⟩ := k1 c hc
      refine ⟨fun k => ?_, fun k => ?_, ?_, ?_⟩
      · obtain ⟨f, hf, -⟩ := hfs k
        have := (List.getElem?_eq_some_iff.1 hf).1
        omega
      · obtain ⟨f, hf, -⟩ := hns k
        have := (List.getElem?_eq_some_iff.1 hf).1
        omega
      · have := (List.getElem?_eq_some_iff.1 hd).1
        have := hm.cells
        omega
      · rw [hmat]; exact (hm.cell d (mem_of_get hd)).2.2
    · intro f hf
      obtain ⟨d, hd, hns⟩ := k2 f hf
      obtain ⟨i, hi⟩ := List.mem_iff_getElem?.1 hf
      obtain ⟨g, hg, hgf⟩ := forall₂_get' M.faces hi
      obtain ⟨-, e, t0, t1, -, s0, s1, ht, -⟩ := createFace_iff.1 hgf
      have bound : ∀ {g c q : Nat} {t : Option Nat}, createSide pv (cellsIn (entries m pv)) p g = some (c, q, t) →
          c < 2 ^ 64 ∧ q < 2 ^ 64 := by
        intro g c q t hs
        rw [createSide_iff h1 h3 (show n < 2 ^ 31 by omega)] at hs
        rcases hs with ⟨-, rfl, rfl, -⟩ | ⟨-, -, hq, hfd, -⟩
        · exact ⟨by decide, by decide⟩
        · have a := (List.getElem?_eq_some_iff.1 (find_some hfd)).1
          have b := lc q
          have c := h3 q (mem_of_get hq)
          omega
      refine ⟨fun k => ?_, fun k => ?_, ?_, fun k => ?_, ?_⟩
      · fin_cases k <;> [exact (bound s0).1; exact (bound s1).1]
      · obtain ⟨f, hf, -⟩ := hns k
        have := (List.getElem?_eq_some_iff.1 hf).1
        omega
      · have := (List.getElem?_eq_some_iff.1 hd).1
        have := hm.faces
        omega
      · fin_cases k <;> [exact (bound s0).2; exact (bound s1).2]
      · have := create_types h hp f hf
        omega
    · intro v hv
      obtain ⟨d, hd, hcd⟩ := k3 v hv
      refine ⟨fun k => ?_, ?_⟩
      · rw [hcd]; exact hm.node d (mem_of_get hd) k
      · have := (List.getElem?_eq_some_iff.1 hd).1
        have := hm.nodes
        omega

/-! ### Offsets -/

theorem sizeOfPartition_eq {p : Part} (h : p.OK) (hl : 8 * p.ws.length < 2 ^ 64) :
    sizeOfPartition p = 8 * p.ws.length := by
  unfold sizeOfPartition
  rw [h.ws_length] at hl ⊢
  rw [Nat.mod_eq_of_lt (by omega)]
  omega

theorem offsetsFrom_get {ps : List Part} (h : ∀ p ∈ ps, p.OK) {s : Nat}
    (hl : s + 8 * (ps.map Part.ws).flatten.length < 2 ^ 64) {i : Nat} (hi : i ≤ ps.length) :
    (offsetsFrom s ps)[i]? = some (s + 8 * ((ps.take i).map Part.ws).flatten.length) := by
  induction ps generalizing s i with
  | nil => obtain rfl : i = 0 := by simpa using hi
           simp [offsetsFrom]
  | cons p ps ih =>
    cases i with
    | zero => simp [offsetsFrom]
    | succ i =>
      simp only [List.map_cons, List.flatten_cons, List.length_append] at hl
      rw [offsetsFrom, List.getElem?_cons_succ, sizeOfPartition_eq (h p (by simp)) (by omega),
        Nat.mod_eq_of_lt (by omega), ih (fun q hq => h q (by simp [hq])) (by omega) (by simpa using hi)]
      simp only [List.take_succ_cons, List.map_cons, List.flatten_cons, List.length_append]
      congr 1
      omega

theorem flatten_split {α : Type} {f : α → List Nat} {l : List α} {i : Nat} {a : α} (h : l[i]? = some a) :
    (l.map f).flatten = ((l.take i).map f).flatten ++ f a ++ ((l.drop (i + 1)).map f).flatten := by
  induction l generalizing i with
  | nil => simp at h
  | cons b l ih =>
    cases i with
    | zero => simp at h; subst h; simp
    | succ i => simp at h; simp [ih h]

/-- C11: in a file that can be addressed, the byte ranges given by the offset table start right behind
the table, adjoin each other, end with the file, and hold exactly the partitions. -/
theorem offsets_right {m : SerialMesh} (hm : m.OK) (hc : m.numCells * 10 < 2 ^ 64) (hf : m.numFaces * 9 < 2 ^ 64)
    (hn : m.numNodes * 4 < 2 ^ 64) {pv : List Nat} {n : Nat} {P : ParallelMesh}
    (h : createFromSerialMesh m pv n = some P) :
    ∃ f, P.write = some f ∧ (f.length < 2 ^ 63 →
      P.bytesOffset.length = n + 1 ∧ P.bytesOffset[0]? = some (48 + 8 * P.bytesOffset.length) ∧
      P.bytesOffset[n]? = some f.length ∧
      ∀ (p : Nat) (part : Part), P.parts[p]? = some part → ∃ o o' ws, P.bytesOffset[p]? = some o ∧
        P.bytesOffset[p + 1]? = some o' ∧ part.words = some ws ∧ o' = o + 8 * ws.length ∧ o' ≤ f.length ∧
        (f.drop o).take (8 * ws.length) = writeWords ws) := by
  have ok := create_ok hm hc hf hn h
  obtain ⟨h1, h2, h3, h4, h5, h6, h7, h8⟩ := create_parts h
  refine ⟨P.bytes, ok.write, fun hlt => ?_⟩
  have hL : P.bytes.length = 32 + (3 + n) * 8 + 8 * (P.parts.map Part.ws).flatten.length := by
    unfold ParallelMesh.bytes
    rw [List.length_append, List.length_append, List.length_append, writeWords_length, writeWords_length,
      writeWords_length, ok.offsets, h5]
    simp [parallelName]
    ring
  have hg : ∀ {i}, i ≤ n → P.bytesOffset[i]? = some (32 + (3 + n) * 8 + 8 * ((P.parts.take i).map Part.ws).flatten.length) := by
    intro i hi
    rw [h7]
    exact offsetsFrom_get ok.part (by omega) (by omega)
  have hlen : P.bytesOffset.length = n + 1 := by rw [ok.offsets, h5]
  refine ⟨hlen, ?_, ?_, ?_⟩
  · rw [hg (by omega), hlen]; simp; ring
  · rw [hg le_rfl, List.take_of_length_le (by omega), hL]
  · intro p part hp
    have hpl := (h8 p part hp).1
    have hsplit := flatten_split (f := Part.ws) hp
    have hsucc : ((P.parts.take (p + 1)).map Part.ws).flatten = ((P.parts.take p).map Part.ws).flatten ++ part.ws := by
      rw [List.take_add_one, hp]; simp
    refine ⟨_, _, part.ws, hg (by omega), hg (by omega), (ok.part part (mem_of_get hp)).words, ?_, ?_, ?_⟩
    · rw [hsucc, List.length_append]; ring
    · rw [hL, hsucc, hsplit]; simp only [List.length_append]; omega
    · have e : P.bytes = (parallelName ++ writeWords [version, P.numPartitions] ++ writeWords P.bytesOffset ++
          writeWords ((P.parts.take p).map Part.ws).flatten) ++ (writeWords part.ws ++
          writeWords ((P.parts.drop (p + 1)).map Part.ws).flatten) := by
        unfold ParallelMesh.bytes
        rw [hsplit, writeWords_append, writeWords_append]
        simp only [List.append_assoc]
      have hl : (parallelName ++ writeWords [version, P.numPartitions] ++ writeWords P.bytesOffset ++
          writeWords ((P.parts.take p).map Part.ws).flatten).length =
          32 + (3 + n) * 8 + 8 * ((P.parts.take p).map Part.ws).flatten.length := by
        rw [List.length_append, List.length_append, List.length_append, writeWords_length, writeWords_length,
          writeWords_length, hlen]
        simp [parallelName]
        ring
      rw [e, List.drop_left' hl, List.take_left' (writeWords_length _)]

/-! ### Parallel reading -/

theorem toInt32_of_lt {n : Nat} (h : n < 2 ^ 31) : toInt32 n = n := by
  unfold toInt32
  rw [Nat.mod_eq_of_lt (by omega), if_pos h]

theorem resize_length (b : List Nat) (n : Nat) : (resize b n).length = n := by
  unfold resize
  simp
  omega

theorem mpiRead_eq {file rest : List UInt8} {ws buf : List Nat} {pos n : Nat} (hp : pos ≤ file.length)
    (hw : Words ws) (hl : ws.length = n) (h : file.drop pos = writeWords ws ++ rest) (hb : buf.length = n)
    (hn : 8 * n < 2 ^ 31) : mpiRead file pos n buf = some (ws, pos + 8 * n) := by
  unfold mpiRead
  rw [toInt32_of_lt hn]
  have hfl : pos + 8 * n ≤ file.length := by
    have := congrArg List.length h
    rw [List.length_drop, List.length_append, writeWords_length] at this
    omega
  simp only [Int.toNat_natCast]
  rw [if_neg (by push Not; refine ⟨by omega, by omega, by omega⟩), Nat.mul_div_cancel_left _ (by norm_num), h,
    ← hl, words_of_write hw, List.drop_of_length_le (by omega), List.append_nil]

theorem readMine_eq {file r1 r2 : List UInt8} {rank off : Nat} {part : Part} (hok : part.OK)
    (hoff : off < 2 ^ 64) (h1 : file.drop (32 + (2 + rank) * 8) = enc64 off ++ r1) (h2 : off ≤ file.length)
    (h3 : file.drop off = writeWords part.ws ++ r2) (hc : 80 * part.numCells < 2 ^ 31)
    (hf : 72 * part.numFaces < 2 ^ 31) (hn : 32 * part.numNodes < 2 ^ 31)
    (ht : ∀ f ∈ part.faces, f.boundaryType < 3) : readMine file rank = some part := by
  have hwd := hok.words_ws
  have hl1 : 32 + (2 + rank) * 8 ≤ file.length := by
    have := congrArg List.length h1
    rw [List.length_drop, List.length_append, enc_length] at this
    omega
  obtain ⟨nc, nf, nn, cl, fl, nl⟩ := part
  obtain ⟨e1, e2, e3, c2, f2, n2, c3, f3, n3⟩ := hok
  dsimp only at e1 e2 e3 c2 f2 n2 c3 f3 n3 hc hf hn ht
  subst e1 e2 e3
  simp only [Part.ws, words_append] at hwd
  simp only [Part.ws, writeWords_append, List.append_assoc] at h3
  obtain ⟨c1, hcl⟩ := pCell_unpack (l := cl).2 ⟨rfl, rfl⟩
  obtain ⟨f1, hfl⟩ := pFace_unpack (l := fl).2 ⟨rfl, rfl⟩
  obtain ⟨n1, hnl⟩ := pNode_unpack (l := nl).2 ⟨rfl, rfl⟩
  have m1 : (cl.length * 10) % 2 ^ 64 = cl.length * 10 := Nat.mod_eq_of_lt c2
  have m2 : (fl.length * 9) % 2 ^ 64 = fl.length * 9 := Nat.mod_eq_of_lt f2
  have m3 : (nl.length * 4) % 2 ^ 64 = nl.length * 4 := Nat.mod_eq_of_lt n2
  have hlen := congrArg List.length h3
  simp only [List.length_drop, List.length_append, writeWords_length, c1, f1, n1, List.length_cons,
    List.length_nil] at hlen
  have d1 : file.drop (off + 8 * 3) = writeWords (cl.flatMap PCell.words) ++
      (writeWords (fl.flatMap PFace.words) ++ (writeWords (nl.flatMap PNode.words) ++ r2)) := by
    rw [← List.drop_drop, h3, List.drop_left' (by rw [writeWords_length]; rfl)]
  have d2 : file.drop (off + 8 * 3 + 8 * (cl.length * 10)) =
      writeWords (fl.flatMap PFace.words) ++ (writeWords (nl.flatMap PNode.words) ++ r2) := by
    rw [← List.drop_drop, d1, List.drop_left' (by rw [writeWords_length, c1])]
  have d3 : file.drop (off + 8 * 3 + 8 * (cl.length * 10) + 8 * (fl.length * 9)) =
      writeWords (nl.flatMap PNode.words) ++ r2 := by
    rw [← List.drop_drop, d2, List.drop_left' (by rw [writeWords_length, f1])]
  unfold readMine
  rw [mpiRead_eq (ws := [off]) (n := 1) hl1 (by intro w hw; simp at hw; omega) rfl
    (rest := r1) (by rw [h1, writeWords_cons]; rfl) rfl (by norm_num)]
  simp only [Option.bind_eq_bind, Option.bind_some, get, List.getD_cons_zero]
  rw [mpiRead_eq (n := 3) h2 hwd.1.1.1 rfl h3 rfl (by norm_num)]
  simp only [Option.bind_some, List.getD_cons_zero, List.getD_cons_succ, m1, m2, m3]
  rw [mpiRead_eq (by omega) (words_pCell.2 c3) c1 d1 (resize_length _ _) (by omega)]
  simp only [Option.bind_some]
  rw [mpiRead_eq (by omega) (words_pFace.2 f3) f1 d2 (resize_length _ _) (by omega)]
  simp only [Option.bind_some, ← hcl, ← hfl]
  rw [show numBoundaryTypes = 3 from rfl, if_pos ht, mpiRead_eq (by omega) (words_pNode.2 n3) n1 d3 (resize_length _ _) (by omega)]
  simp only [Option.bind_some, ← hnl]

theorem take_split {f f' : List UInt8} {o k : Nat} {w : List UInt8}
    (hfw : (f.drop o).take k = w) (h : (f'.drop o).take k = (f.drop o).take k) : ∃ r, f'.drop o = w ++ r :=
  ⟨(f'.drop o).drop k, by rw [← hfw, ← h, List.take_append_drop]⟩

/-- C11, as far as it holds: on partitions of at most `2^31` bytes per array each rank gets its own
partition, and it looks only at the header (48 bytes), its own entry of the offset table and its own
byte range: any file `f'` that agrees with `f` there gives the same. -/
theorem readInParallel_partial {m : SerialMesh} (hm : m.OK) (hc : m.numCells * 10 < 2 ^ 64) (hf : m.numFaces * 9 < 2 ^ 64)
    (hn : m.numNodes * 4 < 2 ^ 64) {pv : List Nat} {n : Nat} {P : ParallelMesh}
    (h : createFromSerialMesh m pv n = some P) {f f' : List UInt8} (hw : P.write = some f) (hlt : f.length < 2 ^ 63)
    {rank o o' : Nat} {part : Part} (hp : P.parts[rank]? = some part)
    (ho : P.bytesOffset[rank]? = some o) (ho' : P.bytesOffset[rank + 1]? = some o')
    (hc' : 80 * part.numCells < 2 ^ 31) (hf' : 72 * part.numFaces < 2 ^ 31) (hn' : 32 * part.numNodes < 2 ^ 31)
    (a1 : f'.take 48 = f.take 48)
    (a2 : (f'.drop (48 + 8 * rank)).take 8 = (f.drop (48 + 8 * rank)).take 8)
    (a3 : (f'.drop o).take (o' - o) = (f.drop o).take (o' - o)) :
    readInParallel f' n rank = some part := by
  have ok := create_ok hm hc hf hn h
  have hpo := ok.part part (mem_of_get hp)
  obtain ⟨f2, hw2, H⟩ := offsets_right hm hc hf hn h
  rw [hw, Option.some.injEq] at hw2
  subst hw2
  obtain ⟨-, -, -, H⟩ := H hlt
  obtain ⟨q, q', ws, b1, b2, b3, b4, b5, b6⟩ := H rank part hp
  rw [ho, Option.some.injEq] at b1
  rw [ho', Option.some.injEq] at b2
  rw [hpo.words, Option.some.injEq] at b3
  subst b1 b2 b3
  rw [show o' - o = 8 * part.ws.length by omega] at a3
  obtain ⟨r2, hr2⟩ := take_split b6 a3
  obtain ⟨l1, l2, l3, l4, l5, l6, l7, l8⟩ := create_parts h
  have hrank := (l8 rank part hp).1
  rw [ok.write, Option.some.injEq] at hw
  subst hw
  have hname : parallelName.length = 32 := rfl
  -- header
  have hd : checkHeader f' n = some () := by
    have e0 : P.bytes.take 48 = parallelName ++ writeWords [version, n] := by
      rw [ParallelMesh.bytes, List.append_assoc, List.append_assoc, ← List.append_assoc, l5,
        List.take_left' (by rw [List.length_append, writeWords_length, hname]; rfl)]
    have e1 : f' = parallelName ++ (writeWords [version, n] ++ f'.drop 48) := by
      rw [← List.append_assoc, ← e0, ← a1, List.take_append_drop]
    unfold checkHeader
    rw [(readName_iff hname).2 e1]
    simp only [Option.bind_eq_bind, Option.bind_some]
    rw [readWords_iff (n := 2) (ws := [version, n]).2 ⟨rfl, ?_, rfl⟩]
    · simp [get]
    · intro w hw
      simp at hw
      rcases hw with rfl | rfl
      · decide
      · omega
  -- offset word
  have hoff : (P.bytes.drop (48 + 8 * rank)).take 8 = enc64 o := by
    have e : P.bytesOffset = P.bytesOffset.take rank ++ (o :: P.bytesOffset.drop (rank + 1)) := by
      obtain ⟨i1, i2⟩ := List.getElem?_eq_some_iff.1 ho
      rw [← i2, ← List.drop_eq_getElem_cons i1, List.take_append_drop]
    have hlr : (P.bytesOffset.take rank).length = rank := by
      rw [List.length_take, ok.offsets]; omega
    rw [show P.bytes = parallelName ++ writeWords [version, P.numPartitions] ++ (writeWords (P.bytesOffset.take rank) ++
      (enc64 o ++ writeWords (P.bytesOffset.drop (rank + 1)))) ++ writeWords (P.parts.map Part.ws).flatten by
        rw [← writeWords_cons, ← writeWords_append, ← e]; rfl]
    rw [show parallelName ++ writeWords [version, P.numPartitions] ++ (writeWords (P.bytesOffset.take rank) ++
      (enc64 o ++ writeWords (P.bytesOffset.drop (rank + 1)))) ++ writeWords (P.parts.map Part.ws).flatten =
      (parallelName ++ writeWords [version, P.numPartitions] ++ writeWords (P.bytesOffset.take rank)) ++
      (enc64 o ++ (writeWords (P.bytesOffset.drop (rank + 1)) ++ writeWords (P.parts.map Part.ws).flatten)) by
        simp only [List.append_assoc]]
    rw [List.drop_left' (by
      rw [List.length_append, List.length_append, writeWords_length, writeWords_length, hname, hlr]; rfl),
      List.take_left' (enc_length 8 _)]
  obtain ⟨r1, hr1⟩ := take_split hoff a2
  have ho64 := ok.offset o (mem_of_get ho)
  unfold readInParallel
  rw [hd]
  simp only [Option.bind_eq_bind, Option.bind_some]
  refine readMine_eq hpo ho64 (by rw [← hr1]; congr 1; omega) ?_ hr2 hc' hf' hn' (create_types h hp)
  have hpos : 0 < part.ws.length := by rw [hpo.ws_length]; omega
  have := congrArg List.length hr2
  rw [List.length_drop, List.length_append, writeWords_length] at this
  omega

/-- The two-cell mesh in two partitions: both ranks get their partition from the file. -/
example : ∃ P f, createFromSerialMesh exMesh [1, 0] 2 = some P ∧ P.write = some f ∧
    f.length = 32 + 8 * 5 + 2 * 8 * (3 + 10 * 1 + 9 * 4 + 4 * 4) ∧
    (List.range 2).map (fun r => readInParallel f 2 r) = P.parts.map some := by
  have hval : ((createFromSerialMesh exMesh [1, 0] 2).bind fun P => P.write.map fun f => (f.length, P.bytesOffset,
      P.parts.map fun p => (p.numCells, p.numFaces, p.numNodes))) = some (1112, [72, 592, 1112], [(1, 4, 4), (1, 4, 4)]) := by
    decide +kernel
  simp only [Option.bind_eq_some_iff, Option.map_eq_some_iff, Prod.mk.injEq] at hval
  obtain ⟨P, hP, f, hf, hl, ho, hs⟩ := hval
  refine ⟨P, f, hP, hf, by rw [hl], ?_⟩
  obtain ⟨p0, p1, hps⟩ : ∃ p0 p1, P.parts = [p0, p1] :=
    List.length_eq_two.1 (by simpa using congrArg List.length hs)
  rw [hps] at hs ⊢
  simp only [List.map_cons, List.map_nil, List.cons.injEq, Prod.mk.injEq, and_true] at hs
  obtain ⟨⟨a1, a2, a3⟩, b1, b2, b3⟩ := hs
  have r0 : readInParallel f 2 0 = some p0 := readInParallel_partial exMesh_ok (by decide) (by decide) (by decide) hP hf
    (by rw [hl]; norm_num) (by rw [hps]; rfl) (by rw [ho]; rfl) (by rw [ho]; rfl) (by omega) (by omega) (by omega)
    rfl rfl rfl
  have r1 : readInParallel f 2 1 = some p1 := readInParallel_partial exMesh_ok (by decide) (by decide) (by decide) hP hf
    (by rw [hl]; norm_num) (by rw [hps]; rfl) (by rw [ho]; rfl) (by rw [ho]; rfl) (by omega) (by omega) (by omega)
    rfl rfl rfl
  simp [List.range_succ, r0, r1]

/-- The header is accepted exactly when the file begins with the format name, the version and the
number of ranks. -/
theorem checkHeader_iff {f : List UInt8} {n : Nat} : checkHeader f n = some () ↔
    n < 2 ^ 64 ∧ f.take 48 = parallelName ++ writeWords [version, n] := by
  have hname : parallelName.length = 32 := rfl
  have hlen : ∀ ws : List Nat, ws.length = 2 → (parallelName ++ writeWords ws).length = 48 := by
    intro ws h; rw [List.length_append, writeWords_length, hname, h]
  unfold checkHeader
  simp only [Option.bind_eq_bind]
  constructor
  · intro h
    obtain ⟨b0, h0, h⟩ := Option.bind_eq_some_iff.1 h
    obtain ⟨⟨ws, b1⟩, h1, h⟩ := Option.bind_eq_some_iff.1 h
    obtain ⟨a, b, c⟩ := readWords_iff.1 h1
    have e := (readName_iff hname).1 h0
    match ws, a with
    | [x, y], a =>
      have hx : x = version ∧ y = n := by
        by_contra hx
        change (if x = version ∧ y = n then some () else none) = some () at h
        rw [if_neg hx] at h
        simp at h
      obtain ⟨rfl, rfl⟩ := hx
      refine ⟨b _ (by simp), ?_⟩
      rw [e, c, ← List.append_assoc, List.take_left' (hlen _ rfl)]
  · rintro ⟨hn, h⟩
    have e1 : f = parallelName ++ (writeWords [version, n] ++ f.drop 48) := by
      rw [← List.append_assoc, ← h, List.take_append_drop]
    rw [(readName_iff hname).2 e1]
    simp only [Option.bind_some]
    rw [readWords_iff (n := 2) (ws := [version, n]).2 ⟨rfl, ?_, rfl⟩]
    · simp [get]
    · intro w hw
      simp at hw
      rcases hw with rfl | rfl
      · decide
      · exact hn

/-- A mesh file for `n` partitions is refused by any other number of ranks. -/
theorem readInParallel_ranks {m : SerialMesh} {pv : List Nat} {n n' rank : Nat} {P : ParallelMesh} {f : List UInt8}
    (h : createFromSerialMesh m pv n = some P) (hw : P.write = some f) (hne : n' ≠ n) :
    readInParallel f n' rank = none := by
  cases hc : checkHeader f n' with
  | none => simp [readInParallel, hc]
  | some u =>
    exfalso
    obtain ⟨h1, h2⟩ := checkHeader_iff.1 hc
    obtain ⟨-, -, -, hb, l5, -⟩ := create_parts h
    unfold ParallelMesh.write at hw
    simp only [Option.bind_eq_bind, Option.bind_eq_some_iff, Option.some.injEq, l5] at hw
    obtain ⟨offs, -, ps, -, ws, -, hw⟩ := hw
    rw [← hw, writeWords_append, writeWords_append, List.append_assoc, ← List.append_assoc,
      List.take_left' (by rw [List.length_append, writeWords_length]; rfl)] at h2
    have h3 := List.append_cancel_left h2
    rw [writeWords_cons, writeWords_cons, writeWords_cons, writeWords_cons] at h3
    have h4 := List.append_cancel_right (List.append_cancel_left h3)
    exact hne (enc64_inj (by omega) h1 h4).symm

/-- The file of the two-cell mesh in two partitions is refused by one rank and by three. -/
example : ∃ P f, createFromSerialMesh exMesh [1, 0] 2 = some P ∧ P.write = some f ∧
    readInParallel f 1 0 = none ∧ readInParallel f 3 0 = none := by
  have hval : ((createFromSerialMesh exMesh [1, 0] 2).bind fun P => P.write.map fun f => f.length) = some 1112 := by
    decide +kernel
  simp only [Option.bind_eq_some_iff, Option.map_eq_some_iff] at hval
  obtain ⟨P, hP, f, hf, -⟩ := hval
  exact ⟨P, f, hP, hf, readInParallel_ranks hP hf (by decide), readInParallel_ranks hP hf (by decide)⟩

/-! ### Large partitions -/

/-- If the byte count of the cell array is a multiple of `2^32`, no cell data are read: the first
cell consists of the counts left in the buffer. -/
theorem mpiRead_length {file : List UInt8} {pos n p : Nat} {buf out : List Nat} (h : mpiRead file pos n buf = some (out, p)) :
    out.length = buf.length := by
  unfold mpiRead at h
  simp only at h
  split at h
  · simp at h
  · rename_i hn
    push Not at hn
    simp only [Option.some.injEq, Prod.mk.injEq] at h
    rw [← h.1, List.length_append, List.length_map, List.length_range, List.length_drop]
    omega

theorem mpiRead_zero {file : List UInt8} {pos n p : Nat} {buf out : List Nat} (h : mpiRead file pos n buf = some (out, p))
    (hz : toInt32 (8 * n) = 0) : out = buf := by
  unfold mpiRead at h
  simp only [hz] at h
  split at h
  · simp at h
  · simp only [Option.some.injEq, Prod.mk.injEq] at h
    rw [← h.1]; rfl

theorem toInt32_zero {n : Nat} (h : 2 ^ 32 ∣ n) : toInt32 n = 0 := by
  unfold toInt32
  rw [Nat.mod_eq_zero_of_dvd h]
  rfl

theorem pCellAt_counts {a b c : Nat} (h : 0 < a) :
    (pCellAt (resize [a, b, c] (a * 10)) 0).faces 0 = a ∧ (pCellAt (resize [a, b, c] (a * 10)) 0).globalID = 0 ∧
      (pCellAt (resize [a, b, c] (a * 10)) 0).material = 0 := by
  have hr : resize [a, b, c] (a * 10) = [a, b, c] ++ List.replicate (a * 10 - 3) 0 := by
    unfold resize
    rw [List.take_of_length_le (by simp; omega)]
    rfl
  rw [hr]
  refine ⟨rfl, ?_, ?_⟩ <;>
    simp [pCellAt, get, List.getD_eq_getElem?_getD, List.getElem?_replicate] <;> split <;> rfl

theorem readMine_wrap {file : List UInt8} {rank : Nat} {part : Part} (h : readMine file rank = some part)
    (hc : part.numCells * 10 < 2 ^ 64) (h32 : 2 ^ 32 ∣ 80 * part.numCells) (hpos : 0 < part.numCells) :
    ∃ c, part.cells[0]? = some c ∧ c.faces 0 = part.numCells ∧ c.globalID = 0 ∧ c.material = 0 := by
  unfold readMine at h
  simp only [Option.bind_eq_bind, Option.bind_eq_some_iff, Prod.exists] at h
  obtain ⟨o, p0, h0, hd, p1, h1, cw, p2, h2, fw, p3, h3, h4⟩ := h
  split at h4
  · simp only [Option.bind_eq_some_iff, Prod.exists, Option.some.injEq] at h4
    obtain ⟨nw, p4, -, rfl⟩ := h4
    dsimp only at hc h32 hpos ⊢
    obtain ⟨a, b, c, rfl⟩ := List.length_eq_three.1 (show hd.length = 3 from mpiRead_length h1)
    have ha : get [a, b, c] 0 = a := rfl
    rw [ha] at h2 hc h32 hpos ⊢
    rw [Nat.mod_eq_of_lt hc] at h2
    have := mpiRead_zero h2 (toInt32_zero (by rwa [show 8 * (a * 10) = 80 * a by ring]))
    subst this
    exact ⟨_, by rw [List.getElem?_map, List.getElem?_range hpos]; rfl, pCellAt_counts hpos⟩
  · simp at h4

theorem apart_ok (n : Nat) (h : n ≤ 2 ^ 58) : (apart n).OK where
  cells := by simp [apart]
  faces := by simp [apart]
  nodes := by simp [apart]
  cellsFit := by simp [apart]; omega
  facesFit := by simp [apart]; omega
  nodesFit := by simp [apart]; omega
  cell := by
    intro c hc
    simp [apart] at hc
    obtain ⟨i, hi, rfl⟩ := hc
    refine ⟨fun k => ?_, fun k => ?_, by norm_num⟩ <;> (show 4 * i + (k : Nat) < 2 ^ 64; omega)
  face := by
    intro c hc
    simp only [apart, List.mem_map, List.mem_range] at hc
    obtain ⟨i, hi, rfl⟩ := hc
    refine ⟨fun k => ?_, fun k => ?_⟩
    · fin_cases k
      · show i / 4 < 2 ^ 64; omega
      · show invalid < 2 ^ 64; decide
    · show 4 * (i / 4) + (if i % 4 ≤ (k : Nat) then (k : Nat) + 1 else k) < 2 ^ 64
      split <;> omega
  node := by
    intro c hc k
    simp only [apart, List.mem_map, List.mem_range] at hc
    obtain ⟨i, hi, rfl⟩ := hc
    show i < 2 ^ 64
    omega

/-- C11 violated: a well-formed mesh of `2^28` cells in one partition is partitioned and written
correctly, but parallel reading does not give it back. -/
theorem readInParallel_large_wrong : ∃ m pv P f, Sound m ∧ m.OK ∧ createFromSerialMesh m pv 1 = some P ∧
    P.write = some f ∧ readParallel f = some P ∧ ∀ part, P.parts[0]? = some part → readInParallel f 1 0 ≠ some part := by
  have h28 : (2 : Nat) ^ 28 ≤ 2 ^ 29 := by norm_num
  obtain ⟨P, hP⟩ := create_small_partial (2 ^ 28) h28
  have hm := apart_ok (2 ^ 28) (by norm_num)
  have ok := create_ok hm (show 2 ^ 28 * 10 < 2 ^ 64 by norm_num) (show 4 * 2 ^ 28 * 9 < 2 ^ 64 by norm_num)
    (show 4 * 2 ^ 28 * 4 < 2 ^ 64 by norm_num) hP
  obtain ⟨f, hw, hrt⟩ := parallel_roundtrip ok
  refine ⟨_, _, P, f, apart_sound _ (by norm_num), hm, hP, hw, by simpa using hrt [], ?_⟩
  intro part hp hr
  unfold readInParallel at hr
  simp only [Option.bind_eq_bind, Option.bind_eq_some_iff] at hr
  obtain ⟨_, -, hr⟩ := hr
  have hcells := (create_cells hP).2 0 part hp
  have hfil : (List.range (apart (2 ^ 28)).numCells).filter (fun c => (List.replicate (2 ^ 28) 0)[c]? = some 0) =
      List.range (2 ^ 28) := by
    show (List.range (2 ^ 28)).filter _ = _
    rw [List.filter_eq_self]
    intro c hc
    rw [List.mem_range] at hc
    rw [List.getElem?_replicate, if_pos hc]
    rfl
  rw [hfil] at hcells
  obtain ⟨hnc, hids⟩ := hcells
  have hnc' : part.numCells = 2 ^ 28 := by
    have := congrArg List.length hids
    rw [List.length_map, List.length_range] at this
    omega
  obtain ⟨c, hc0, hcf, -, -⟩ := readMine_wrap hr (by rw [hnc']; norm_num) (by rw [hnc']; norm_num) (by rw [hnc']; norm_num)
  obtain ⟨k1, -, -, -, k5, -⟩ := create_connectivity hP hp
  obtain ⟨d, hd, -, hfs, -⟩ := k1 c (mem_of_get hc0)
  have hcg : c.globalID = 0 := by
    have : (part.cells.map PCell.globalID)[0]? = some c.globalID := by rw [List.getElem?_map, hc0]; rfl
    rw [hids, List.getElem?_range (by norm_num)] at this
    exact (Option.some.inj this).symm
  obtain ⟨g, hg, hg0⟩ := hfs 0
  have hd0 : d.faces 0 = 0 := by
    rw [hcg] at hd
    simp only [apart, List.getElem?_map] at hd
    rw [List.getElem?_range (by norm_num)] at hd
    have := Option.some.inj hd
    rw [← this]
    rfl
  rw [hcf, hnc'] at hg
  rw [hd0] at hg0
  obtain ⟨i1, i2⟩ := List.getElem?_eq_some_iff.1 hg
  have := List.pairwise_iff_getElem.1 k5 0 (2 ^ 28) (by rw [List.length_map]; exact lt_trans (by norm_num) i1)
    (by rw [List.length_map]; exact i1) (by norm_num)
  rw [List.getElem_map, List.getElem_map, i2, hg0] at this
  exact Nat.not_lt_zero _ this

end Verif.MeshFile
