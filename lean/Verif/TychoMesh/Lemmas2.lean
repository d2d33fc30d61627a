import Verif.TychoMesh.Lemmas
import Mathlib.Tactic.Order

/-!
# Sides, ranks and vertices
-/
namespace Verif.TychoMesh

open Verif.MeshFile

/-! ### Vertex order -/

section
variable {R : Type} [LinearOrder R]

theorem isLess_iff {v w : Fin 3 → R} : isLess v w = true ↔
    v 0 < w 0 ∨ (v 0 = w 0 ∧ (v 1 < w 1 ∨ (v 1 = w 1 ∧ v 2 ≤ w 2))) := by
  unfold isLess
  split
  · simp [*]
  · split
    · rename_i h1 h2
      simp [h1, h2.ne']
    · rename_i h1 h2
      have e0 : v 0 = w 0 := le_antisymm (not_lt.1 h2) (not_lt.1 h1)
      split
      · simp [*]
      · split
        · rename_i h3 h4
          simp [e0, h3, h4.ne']
        · rename_i h3 h4
          have e1 : v 1 = w 1 := le_antisymm (not_lt.1 h4) (not_lt.1 h3)
          split
          · rename_i h5; simp [e0, e1, h5.le]
          · split
            · rename_i h6; simp [e0, e1, h6]
            · rename_i h6; simp [e0, e1, not_lt.1 h6]

theorem isLess_total (v w : Fin 3 → R) : isLess v w = true ∨ isLess w v = true := by
  rw [isLess_iff, isLess_iff]
  rcases lt_trichotomy (v 0) (w 0) with h | h | h
  · tauto
  · rcases lt_trichotomy (v 1) (w 1) with h1 | h1 | h1
    · tauto
    · rcases le_total (v 2) (w 2) with h2 | h2
      · tauto
      · right; right; exact ⟨h.symm, .inr ⟨h1.symm, h2⟩⟩
    · right; right; exact ⟨h.symm, .inl h1⟩
  · tauto

theorem isLess_trans {u v w : Fin 3 → R} (h1 : isLess u v = true) (h2 : isLess v w = true) : isLess u w = true := by
  rw [isLess_iff] at *
  rcases h1 with h1 | ⟨h1, h1' | ⟨h1', h1''⟩⟩ <;> rcases h2 with h2 | ⟨h2, h2' | ⟨h2', h2''⟩⟩
  · left; order
  · left; order
  · left; order
  · left; order
  · right; exact ⟨by order, .inl (by order)⟩
  · right; exact ⟨by order, .inl (by order)⟩
  · left; order
  · right; exact ⟨by order, .inl (by order)⟩
  · right; exact ⟨by order, .inr ⟨by order, by order⟩⟩

theorem order3_some (a b c : Fin 3 → R) : ∃ o, order3 a b c = some o ∧ Function.Surjective o := by
  unfold order3
  have key : (isLess a b = true ∧ isLess a c = true) ∨ (isLess b a = true ∧ isLess b c = true) ∨
      (isLess c a = true ∧ isLess c b = true) := by
    rcases isLess_total a b with h1 | h1 <;> rcases isLess_total b c with h2 | h2 <;>
      rcases isLess_total a c with h3 | h3
    · exact .inl ⟨h1, h3⟩
    · exact .inl ⟨h1, isLess_trans h1 h2⟩
    · exact .inl ⟨h1, h3⟩
    · exact .inr (.inr ⟨h3, h2⟩)
    · exact .inr (.inl ⟨h1, h2⟩)
    · exact .inr (.inl ⟨h1, h2⟩)
    · exact .inr (.inr ⟨isLess_trans h2 h1, h2⟩)
    · exact .inr (.inr ⟨h3, h2⟩)
  split
  · refine ⟨_, rfl, ?_⟩
    split <;> decide
  · split
    · refine ⟨_, rfl, ?_⟩
      split <;> decide
    · split
      · refine ⟨_, rfl, ?_⟩
        split <;> decide
      · tauto
end

/-- The same loop with the matching given. -/
def loopOf (φ : Fin 3 → Fin 4) (order : Fin 3 → Fin 3) : Row (Fin 4) 3 × Row (Fin 3) 4 :=
  (List.finRange 3).foldl (fun s fv => (List.finRange 4).foldl (fun s cv =>
    if cv = φ (order fv) then (setRow s.1 (order fv) cv, setRow s.2 cv (order fv)) else s) s)
    (fun _ => none, fun _ => none)

set_option synthInstance.maxHeartbeats 200000 in
set_option synthInstance.maxSize 1000 in
theorem loopOf_spec' : ∀ (a b c : Fin 4) (x y z : Fin 3), a ≠ b → a ≠ c → b ≠ c → x ≠ y → x ≠ z → y ≠ z →
    (∀ j, (loopOf ![a, b, c] ![x, y, z]).1 j = some (![a, b, c] j)) ∧
    (∀ v j, (loopOf ![a, b, c] ![x, y, z]).2 v = some j ↔ ![a, b, c] j = v) := by
  decide +kernel

theorem loopOf_spec (φ : Fin 3 → Fin 4) (o : Fin 3 → Fin 3) (hφ : Function.Injective φ) (ho : Function.Surjective o) :
    (∀ j, (loopOf φ o).1 j = some (φ j)) ∧ (∀ v j, (loopOf φ o).2 v = some j ↔ φ j = v) := by
  have e1 : φ = ![φ 0, φ 1, φ 2] := by funext j; fin_cases j <;> rfl
  have e2 : o = ![o 0, o 1, o 2] := by funext j; fin_cases j <;> rfl
  have hoi := Finite.injective_iff_surjective.2 ho
  have := loopOf_spec' (φ 0) (φ 1) (φ 2) (o 0) (o 1) (o 2) (hφ.ne (by decide)) (hφ.ne (by decide)) (hφ.ne (by decide))
    (hoi.ne (by decide)) (hoi.ne (by decide)) (hoi.ne (by decide))
  rw [← e1, ← e2] at this
  exact this

theorem faceVrtxLoop_spec {fn : Fin 3 → Nat} {cn : Fin 4 → Nat} {o : Fin 3 → Fin 3} (hcn : Function.Injective cn)
    {l : Fin 4} (hl : ∀ k, (∃ j, fn j = cn k) ↔ k ≠ l) (hcov : ∀ j, ∃ k, fn j = cn k) (ho : Function.Surjective o) :
    ∃ φ : Fin 3 → Fin 4, (∀ j, fn j = cn (φ j)) ∧ Function.Injective φ ∧ (∀ v, (∃ j, φ j = v) ↔ v ≠ l) ∧
      (∀ j, (faceVrtxLoop fn cn o).1 j = some (φ j)) ∧ (∀ v j, (faceVrtxLoop fn cn o).2 v = some j ↔ φ j = v) := by
  choose φ hφ using hcov
  have hm : ∀ v, (∃ j, φ j = v) ↔ v ≠ l := by
    intro v
    rw [← hl v]
    constructor
    · rintro ⟨j, rfl⟩; exact ⟨j, hφ j⟩
    · rintro ⟨j, hj⟩; exact ⟨j, hcn ((hφ j).symm.trans hj)⟩
  have hinj : Function.Injective φ := by
    -- the image has three elements
    have : ∀ (l a b c : Fin 4), (∀ v, (a = v ∨ b = v ∨ c = v) ↔ v ≠ l) → a ≠ b ∧ a ≠ c ∧ b ≠ c := by decide
    obtain ⟨h1, h2, h3⟩ := this l (φ 0) (φ 1) (φ 2) (by
      intro v; rw [← hm v, Fin.exists_fin_succ, Fin.exists_fin_succ, Fin.exists_fin_succ]; simp)
    intro i j hij
    fin_cases i <;> fin_cases j <;> first | rfl | (exfalso; first | exact h1 hij | exact h2 hij | exact h3 hij | exact h1 hij.symm | exact h2 hij.symm | exact h3 hij.symm)
  have e : faceVrtxLoop fn cn o = loopOf φ o := by
    unfold faceVrtxLoop loopOf
    have : ∀ fv cv, (fn (o fv) = cn cv) ↔ cv = φ (o fv) := by
      intro fv cv
      rw [hφ (o fv)]
      exact ⟨fun h => (hcn h).symm, fun h => by rw [h]⟩
    simp only [this]
  rw [e]
  exact ⟨φ, hφ, hinj, hm, loopOf_spec φ o hinj ho⟩

theorem checkVrtx_spec {l : Fin 4} {t : Row (Fin 4) 3 × Row (Fin 3) 4} {φ : Fin 3 → Fin 4}
    (hm : ∀ v, (∃ j, φ j = v) ↔ v ≠ l) (h1 : ∀ j, t.1 j = some (φ j)) (h2 : ∀ v j, t.2 v = some j ↔ φ j = v) :
    checkVrtx l t = some φ := by
  unfold checkVrtx
  rw [if_pos]
  · exact complete_iff.2 h1
  · refine ⟨fun cv hcv => ?_, fun fv => ⟨φ fv, h1 fv, (hm _).1 ⟨fv, rfl⟩, (h2 _ _).2 rfl⟩⟩
    obtain ⟨j, hj⟩ := (hm cv).2 hcv
    exact ⟨j, (h2 _ _).2 hj, by rw [h1, hj]⟩

/-! ### Ranks -/

section
variable {m : SerialMesh} {pv : List Nat} {n : Nat} {P : ParallelMesh}

theorem proc_facts (H : Created m pv n P) {r : Nat} {part : Part} (hp : P.parts[r]? = some part) {i : Nat} {cell : PCell}
    {d : SCell} {l : Fin 4} {en : Entry} {f : PFace} {e : SFace} {g : Nat}
    (F : RowFact m pv P r i part cell d l en f e g) :
    (∃ y c', At m P y c' g ∧ c' ≠ cell.globalID ∧ adjProc part r cell en = some y.rank ∧ (f.boundaryType = 2 ↔ y.rank = r)) ∨
    ((∀ y c', At m P y c' g → c' = cell.globalID) ∧ adjProc part r cell en = some uintMax ∧ f.boundaryType ≠ 2) := by
  have hfm := mem_of_get F.face
  obtain ⟨e', he', hk, hr, ht0, ht1, ht2⟩ := create_boundary H.tets.toSound H.faces H.create hp hfm
  rw [F.gid, F.sface, Option.some.injEq] at he'
  subst he'
  obtain ⟨-, hclt, hcr⟩ := at_rank H F.at_
  obtain ⟨e', he', j, hj⟩ := at_lists H F.at_
  rw [F.sface, Option.some.injEq] at he'
  subst he'
  have hcinv : cell.globalID ≠ invalid := by have := H.tets.fit; omega
  have hpj : f.partition j = r := by
    rcases hk j with ⟨a, -⟩ | ⟨-, -, -, -, a, -⟩
    · exact absurd (hj.symm.trans a) hcinv
    · rw [hj, hcr, Option.some.injEq] at a; exact a.symm
  have hne := H.tets.sides e (mem_of_get F.sface)
  -- the other side
  obtain ⟨o, ho, hcov, hproc⟩ : ∃ o : Fin 2, e.cells o ≠ cell.globalID ∧ (∀ k, k = j ∨ k = o) ∧
      adjProc part r cell en = some (f.partition o) := by
    have hadj : adjProc part r cell en = some (if f.partition 0 = r then f.partition 1 else f.partition 0) := by
      unfold adjProc
      simp only [F.face, Option.bind_eq_bind, Option.bind_some]
      rw [if_pos]
      fin_cases j
      · exact .inl hpj
      · exact .inr hpj
    fin_cases j
    · change f.partition 0 = r at hpj
      refine ⟨1, fun h => hne (hj.trans h.symm), by decide, ?_⟩
      rw [hadj, if_pos hpj]
    · change f.partition 1 = r at hpj
      refine ⟨0, fun h => hne (h.trans hj.symm), by decide, ?_⟩
      rw [hadj]
      by_cases h0 : f.partition 0 = r
      · rw [if_pos h0, hpj, h0]
      · rw [if_neg h0]
  have hcells : ∀ {y c'}, At m P y c' g → c' = cell.globalID ∨ c' = e.cells o := by
    intro y c' hy
    obtain ⟨e', he', k, hk⟩ := at_lists H hy
    rw [F.sface, Option.some.injEq] at he'
    subst he'
    rcases hcov k with rfl | rfl
    · exact .inl (hk.symm.trans hj)
    · exact .inr hk.symm
  rcases hk o with ⟨a1, a2, a3⟩ | ⟨a1, part', cell', a2, a3, a4, a5⟩
  · right
    refine ⟨fun y c' hy => ?_, by rw [hproc, a3]; rfl, ?_⟩
    · rcases hcells hy with h | h
      · exact h
      · have := (at_rank H hy).2.1
        rw [h, a1] at this
        have := H.tets.fit
        omega
    · rw [ht0.2]
      · decide
      · fin_cases o
        · exact .inl a1
        · exact .inr a1
  · left
    have hinv : e.cells o ≠ invalid := by have := H.tets.fit; omega
    obtain ⟨y, hy⟩ := at_of_cell H F.sface hinv
    have hyr : y.rank = f.partition o := by
      have := (at_rank H hy).2.2
      rw [a3, Option.some.injEq] at this
      exact this.symm
    refine ⟨y, _, hy, ho, by rw [hproc, hyr], ?_⟩
    rw [ht2]
    have own : ∀ {k}, ownerOf pv (e.cells k) = some (f.partition k) := by
      intro k
      unfold ownerOf
      rcases hcov k with rfl | rfl
      · rw [hj, if_neg hcinv, hcr, hpj]
      · rw [if_neg hinv, a3]
    rw [own, own]
    constructor
    · rintro ⟨q, h1, h2⟩
      rw [Option.some.injEq] at h1 h2
      rw [hyr, ← hpj]
      have e01 : f.partition 0 = f.partition 1 := h1.trans h2.symm
      have : ∀ k, f.partition k = f.partition 0 := by
        intro k; fin_cases k
        · rfl
        · exact e01.symm
      rw [this o, this j]
    · intro h
      refine ⟨r, ?_, ?_⟩
      · rcases hcov 0 with h' | h'
        · rw [h', hpj]
        · rw [h', ← hyr, h]
      · rcases hcov 1 with h' | h'
        · rw [h', hpj]
        · rw [h', ← hyr, h]

/-- Two faces at the part boundary of one rank are different faces of the mesh. -/
theorem bdry_inj (H : Created m pv n P) {r : Nat} {part : Part} (hp : P.parts[r]? = some part) {i i' : Nat} {cell cell' : PCell}
    {d d' : SCell} {l l' : Fin 4} {en en' : Entry} {f f' : PFace} {e e' : SFace} {g : Nat}
    (F : RowFact m pv P r i part cell d l en f e g) (F' : RowFact m pv P r i' part cell' d' l' en' f' e' g)
    (hb : f.boundaryType ≠ 2) : i = i' ∧ l = l' := by
  by_cases hcc : cell'.globalID = cell.globalID
  · have := F'.at_
    rw [hcc] at this
    have := at_inj H F.at_ this
    injection this with h1 h2 h3
    exact ⟨h2, h3⟩
  · exfalso
    rcases proc_facts H hp F with ⟨y, c', hy, hne, -, ht⟩ | ⟨hall, -, -⟩
    · -- at most two cells
      obtain ⟨e1, h1, j1, k1⟩ := at_lists H F.at_
      obtain ⟨e2, h2, j2, k2⟩ := at_lists H F'.at_
      obtain ⟨e3, h3, j3, k3⟩ := at_lists H hy
      rw [h1, Option.some.injEq] at h2 h3
      subst h2 h3
      have : ∀ a b c : Fin 2, a ≠ b → a ≠ c → b = c := by decide
      have hj : j2 = j3 := this j1 j2 j3 (fun h => hcc (by rw [← k2, ← h, k1])) (fun h => hne (by rw [← k3, ← h, k1]))
      have hc' : c' = cell'.globalID := by rw [← k3, ← hj, k2]
      rw [hc'] at hy
      have := at_inj H hy F'.at_
      exact hb (ht.2 (by rw [this]))
    · exact hcc (hall _ _ F'.at_)

end

/-! ### Sides -/

/-- The face is a boundary face according to the row. -/
def bd (row : Fin 4 → Entry) (l : Fin 4) : Bool := (row l).adjCell = uintMax

theorem sideFold (P : Part) (cell : Nat) (d : PCell) (row : Fin 4 → Entry) (G : Fin 4 → Nat)
    (hG : ∀ l, ∃ f, P.faces[d.faces (row l).handle]? = some f ∧ f.globalID = G l) (ls : List (Fin 4)) (hnd : ls.Nodup)
    (s : List (Nat × Nat)) (r0 : Fin 4 → Nat) :
    ls.foldlM (sideStep P cell d row) (s, r0) = some (s ++ (ls.filter (bd row)).map (fun l => (cell, G l)),
      fun l => if l ∈ ls then (if bd row l then s.length + (ls.filter (bd row)).idxOf l else uintMax) else r0 l) := by
  induction ls generalizing s r0 with
  | nil => simp
  | cons a ls ih =>
    obtain ⟨hna, hnd⟩ := List.nodup_cons.1 hnd
    rw [List.foldlM_cons]
    obtain ⟨f, hf, hfg⟩ := hG a
    by_cases hb : (row a).adjCell = uintMax
    · have hb' : bd row a = true := by simp [bd, hb]
      have : sideStep P cell d row (s, r0) a = some (s ++ [(cell, G a)], fun j => if j = a then s.length else r0 j) := by
        unfold sideStep
        rw [if_pos hb]
        simp only [hf, Option.bind_eq_bind, Option.bind_some, hfg]
      rw [this]
      simp only [Option.bind_eq_bind, Option.bind_some]
      rw [ih hnd, List.filter_cons_of_pos hb']
      simp only [Option.some.injEq, Prod.mk.injEq]
      refine ⟨by simp, ?_⟩
      funext l
      by_cases hla : l = a
      · subst hla
        simp [hna, hb']
      · have hal : ¬ a = l := fun h => hla h.symm
        by_cases hl : l ∈ ls
        · simp only [hl, hla, List.mem_cons, or_true, if_true, List.length_append, List.length_cons, List.length_nil,
            List.idxOf_cons]
          by_cases hbl : bd row l = true
          · have hbeq : (a == l) = false := by simpa using hal
            simp only [hbl, if_true, hbeq, cond_false]; omega
          · simp [hbl]
        · simp [hl, hla]
    · have hb' : ¬ bd row a = true := by simp [bd, hb]
      have : sideStep P cell d row (s, r0) a = some (s, fun j => if j = a then uintMax else r0 j) := by
        unfold sideStep
        rw [if_neg hb]
      rw [this]
      simp only [Option.bind_eq_bind, Option.bind_some]
      rw [ih hnd, List.filter_cons_of_neg hb']
      simp only [Option.some.injEq, Prod.mk.injEq, true_and]
      funext l
      by_cases hla : l = a
      · subst hla
        simp [hna, hb']
      · by_cases hl : l ∈ ls
        · simp [hl]
        · simp [hl, hla]

/-- The boundary faces in the order of the loops. -/
def bndOf : Nat → List (PCell × (Fin 4 → Entry)) → List (Nat × Fin 4)
  | _, [] => []
  | c, (_, row) :: ds => ((List.finRange 4).filter (bd row)).map (fun l => (c, l)) ++ bndOf (c + 1) ds

theorem mem_bndOf {c : Nat} {ds : List (PCell × (Fin 4 → Entry))} {x : Nat × Fin 4} :
    x ∈ bndOf c ds ↔ ∃ k p, ds[k]? = some p ∧ x.1 = c + k ∧ bd p.2 x.2 = true := by
  induction ds generalizing c with
  | nil => simp [bndOf]
  | cons p ds ih =>
    obtain ⟨d, row⟩ := p
    rw [bndOf, List.mem_append, ih]
    constructor
    · rintro (h | ⟨k, p, h1, h2, h3⟩)
      · obtain ⟨l, hl, rfl⟩ := List.mem_map.1 h
        exact ⟨0, (d, row), rfl, rfl, (List.mem_filter.1 hl).2⟩
      · exact ⟨k + 1, p, by simpa using h1, by omega, h3⟩
    · rintro ⟨k, p, h1, h2, h3⟩
      cases k with
      | zero =>
        simp at h1
        subst h1
        left
        refine List.mem_map.2 ⟨x.2, List.mem_filter.2 ⟨List.mem_finRange _, h3⟩, ?_⟩
        ext <;> simp [h2]
      | succ k => right; exact ⟨k, p, by simpa using h1, by omega, h3⟩

theorem nodup_bndOf (c : Nat) (ds : List (PCell × (Fin 4 → Entry))) : (bndOf c ds).Nodup := by
  induction ds generalizing c with
  | nil => exact List.nodup_nil
  | cons p ds ih =>
    obtain ⟨d, row⟩ := p
    rw [bndOf]
    refine List.Nodup.append ?_ (ih _) ?_
    · exact List.Nodup.map (fun a b h => by simpa using h) ((List.nodup_finRange 4).filter _)
    · intro x h1 h2
      obtain ⟨l, -, rfl⟩ := List.mem_map.1 h1
      obtain ⟨k, p, -, h3, -⟩ := mem_bndOf.1 h2
      simp at h3
      omega

theorem sideLoop_spec (P : Part) (G : Nat → Fin 4 → Nat) (c : Nat) (ds : List (PCell × (Fin 4 → Entry)))
    (hG : ∀ k p, ds[k]? = some p → ∀ l, ∃ f, P.faces[p.1.faces (p.2 l).handle]? = some f ∧ f.globalID = G (c + k) l)
    (s : List (Nat × Nat)) :
    ∃ rows, sideLoop P c ds s = some (s ++ (bndOf c ds).map (fun x => (x.1, G x.1 x.2)), rows) ∧
      rows.length = ds.length ∧
      ∀ k p, ds[k]? = some p → rows[k]? = some fun l =>
        if bd p.2 l then s.length + (bndOf c ds).idxOf (c + k, l) else uintMax := by
  induction ds generalizing c s with
  | nil => exact ⟨[], by simp [sideLoop, bndOf], rfl, by simp⟩
  | cons p ds ih =>
    obtain ⟨d, row⟩ := p
    have h0 := sideFold P c d row (G c) (fun l => by simpa using hG 0 (d, row) rfl l) (List.finRange 4) (List.nodup_finRange 4)
      s (fun _ => 0)
    obtain ⟨rows, h1, h2, h3⟩ := ih (c + 1) (fun k p hp l => by
      have := hG (k + 1) p (by simpa using hp) l
      rwa [show c + (k + 1) = c + 1 + k by omega] at this) (s ++ ((List.finRange 4).filter (bd row)).map (fun l => (c, G c l)))
    refine ⟨(fun l => if bd row l then s.length + ((List.finRange 4).filter (bd row)).idxOf l else uintMax) :: rows, ?_,
      by simp [h2], ?_⟩
    · rw [sideLoop]
      simp only [Option.bind_eq_bind, h0, Option.bind_some, h1]
      simp only [Option.some.injEq, Prod.mk.injEq]
      refine ⟨?_, ?_⟩
      · simp [bndOf, Function.comp_def]
      · simp
    · intro k p hp
      cases k with
      | zero =>
        simp at hp
        subst hp
        simp only [List.getElem?_cons_zero, Option.some.injEq]
        funext l
        simp only [Nat.add_zero]
        by_cases hb : bd row l = true
        · rw [if_pos hb, if_pos hb, bndOf]
          have hm : l ∈ (List.finRange 4).filter (bd row) := List.mem_filter.2 ⟨List.mem_finRange l, hb⟩
          rw [List.idxOf_append_of_mem (List.mem_map.2 ⟨l, hm, rfl⟩)]
          congr 1
          generalize (List.finRange 4).filter (bd row) = L at hm ⊢
          induction L with
          | nil => simp at hm
          | cons a L ihL =>
            rw [List.map_cons, List.idxOf_cons, List.idxOf_cons]
            by_cases hal : a = l
            · simp [hal]
            · have : ¬ l = a := fun h => hal h.symm
              simp only [List.mem_cons, this, false_or] at hm
              have b1 : (a == l) = false := by simpa using hal
              have b2 : ((c, a) == (c, l)) = false := by simpa using hal
              rw [b1, b2, cond_false, cond_false, ihL hm]
        · rw [if_neg hb, if_neg hb]
      | succ k =>
        rw [List.getElem?_cons_succ] at hp ⊢
        rw [h3 k p hp]
        simp only [Option.some.injEq]
        funext l
        by_cases hb : bd p.2 l = true
        · rw [if_pos hb, if_pos hb, bndOf, List.idxOf_append_of_notMem]
          · simp only [List.length_append, List.length_map]
            rw [show c + (k + 1) = c + 1 + k by omega]
            omega
          · intro h
            obtain ⟨l', -, h'⟩ := List.mem_map.1 h
            simp at h'
        · rw [if_neg hb, if_neg hb]

end Verif.TychoMesh
