import Verif.MeshFile.Create
import Verif.MeshFile.Lemmas2
import Mathlib.Data.List.Sort
import Mathlib.Data.List.Forall2

/-!
# Lemmas on partitioning
-/
namespace Verif.MeshFile

/-! ### Sets as increasing lists -/

theorem mem_setInsert {x y : Nat} {l : List Nat} : y ∈ setInsert x l ↔ y = x ∨ y ∈ l := by
  induction l with
  | nil => simp [setInsert]
  | cons z l ih =>
    unfold setInsert
    split
    · simp
    · split
      · rename_i h; subst h; simp
      · simp only [List.mem_cons, ih]; tauto

theorem sorted_setInsert {x : Nat} {l : List Nat} (h : l.Pairwise (· < ·)) :
    (setInsert x l).Pairwise (· < ·) := by
  induction l with
  | nil => simp [setInsert]
  | cons z l ih =>
    obtain ⟨h1, h2⟩ := List.pairwise_cons.1 h
    unfold setInsert
    split
    · rename_i hx
      refine List.pairwise_cons.2 ⟨?_, h⟩
      intro a ha
      rcases List.mem_cons.1 ha with rfl | ha
      · exact hx
      · exact hx.trans (h1 a ha)
    · split
      · exact h
      · refine List.pairwise_cons.2 ⟨?_, ih h2⟩
        intro a ha
        rcases mem_setInsert.1 ha with rfl | ha
        · omega
        · exact h1 a ha

theorem sorted_ext {l l' : List Nat} (h : l.Pairwise (· < ·)) (h' : l'.Pairwise (· < ·))
    (hm : ∀ x, x ∈ l ↔ x ∈ l') : l = l' := by
  have n1 : l.Nodup := h.imp fun hab => Nat.ne_of_lt hab
  have n2 : l'.Nodup := h'.imp fun hab => Nat.ne_of_lt hab
  refine ((List.perm_ext_iff_of_nodup n1 n2).2 hm).eq_of_pairwise ?_ h h'
  intro a b _ _ h1 h2
  omega

theorem foldl_insert_mem {α : Type} (f : α → Nat) (l : List α) (s : List Nat) (x : Nat) :
    x ∈ l.foldl (fun s a => setInsert (f a) s) s ↔ x ∈ s ∨ ∃ a ∈ l, f a = x := by
  induction l generalizing s with
  | nil => simp
  | cons a l ih =>
    rw [List.foldl_cons, ih, mem_setInsert]
    simp only [List.mem_cons, exists_eq_or_imp]
    tauto

theorem foldl_insert_sorted {α : Type} (f : α → Nat) (l : List α) (s : List Nat)
    (h : s.Pairwise (· < ·)) : (l.foldl (fun s a => setInsert (f a) s) s).Pairwise (· < ·) := by
  induction l generalizing s with
  | nil => exact h
  | cons a l ih => exact ih _ (sorted_setInsert h)

theorem foldl_if_mem {α β : Type} (p : α → Prop) [DecidablePred p] (f : α → β → Nat) (g : List β) (l : List α)
    (s : List Nat) (x : Nat) :
    x ∈ l.foldl (fun s a => if p a then g.foldl (fun s b => setInsert (f a b) s) s else s) s ↔
      x ∈ s ∨ ∃ a ∈ l, p a ∧ ∃ b ∈ g, f a b = x := by
  induction l generalizing s with
  | nil => simp
  | cons a l ih =>
    rw [List.foldl_cons, ih]
    simp only [List.mem_cons, exists_eq_or_imp]
    split
    · rename_i h; rw [foldl_insert_mem]; simp only [h, true_and, or_assoc]
    · rename_i h; simp only [h, false_and, false_or]

theorem foldl_if_sorted {α β : Type} (p : α → Prop) [DecidablePred p] (f : α → β → Nat) (g : List β)
    (l : List α) (s : List Nat) (h : s.Pairwise (· < ·)) :
    (l.foldl (fun s a => if p a then g.foldl (fun s b => setInsert (f a b) s) s else s) s).Pairwise (· < ·) := by
  induction l generalizing s with
  | nil => exact h
  | cons a l ih =>
    rw [List.foldl_cons]
    apply ih
    split
    · exact foldl_insert_sorted _ _ _ h
    · exact h

theorem facesIn_mem {es : List ((SCell × Nat) × Nat)} {part x : Nat} :
    x ∈ facesIn es part ↔ ∃ e ∈ es, e.2 = part ∧ ∃ k, viaInt (e.1.1.faces k) = x := by
  unfold facesIn
  rw [foldl_if_mem (fun e : (SCell × Nat) × Nat => e.2 = part) (fun e k => viaInt (e.1.1.faces k)) (List.finRange 4)]
  simp

theorem facesIn_sorted (es : List ((SCell × Nat) × Nat)) (part : Nat) :
    (facesIn es part).Pairwise (· < ·) := by
  unfold facesIn
  exact foldl_if_sorted (fun e : (SCell × Nat) × Nat => e.2 = part) (fun e k => viaInt (e.1.1.faces k)) _ _ _ .nil

theorem nodesIn_mem {es : List ((SCell × Nat) × Nat)} {part x : Nat} :
    x ∈ nodesIn es part ↔ ∃ e ∈ es, e.2 = part ∧ ∃ k, viaInt (e.1.1.nodes k) = x := by
  unfold nodesIn
  rw [foldl_if_mem (fun e : (SCell × Nat) × Nat => e.2 = part) (fun e k => viaInt (e.1.1.nodes k)) (List.finRange 4)]
  simp

theorem nodesIn_sorted (es : List ((SCell × Nat) × Nat)) (part : Nat) :
    (nodesIn es part).Pairwise (· < ·) := by
  unfold nodesIn
  exact foldl_if_sorted (fun e : (SCell × Nat) × Nat => e.2 = part) (fun e k => viaInt (e.1.1.nodes k)) _ _ _ .nil

theorem cellsIn_mem {es : List ((SCell × Nat) × Nat)} {part x : Nat} :
    x ∈ cellsIn es part ↔ ∃ e ∈ es, e.2 = part ∧ e.1.2 = x := by
  have := foldl_if_mem (fun e : (SCell × Nat) × Nat => e.2 = part) (fun e (_ : Unit) => e.1.2) [()] es [] x
  simpa [cellsIn] using this

theorem cellsIn_sorted (es : List ((SCell × Nat) × Nat)) (part : Nat) :
    (cellsIn es part).Pairwise (· < ·) := by
  have := foldl_if_sorted (fun e : (SCell × Nat) × Nat => e.2 = part) (fun e (_ : Unit) => e.1.2) [()] es [] .nil
  simpa [cellsIn] using this

theorem entries_mem {m : SerialMesh} {pv : List Nat} {d : SCell} {c p : Nat} :
    ((d, c), p) ∈ entries m pv ↔ c < m.numCells ∧ m.cells[c]? = some d ∧ pv[c]? = some p := by
  unfold entries
  rw [List.mem_iff_getElem?]
  simp only [List.getElem?_zip_eq_some, List.getElem?_zipIdx, Option.map_eq_some_iff, Prod.mk.injEq,
    Nat.zero_add, List.getElem?_take]
  constructor
  · rintro ⟨i, ⟨d', h3, rfl, rfl⟩, h4⟩
    split at h3
    · exact ⟨by assumption, h3, h4⟩
    · simp at h3
  · rintro ⟨h3, h4, h5⟩
    exact ⟨c, ⟨d, by rw [if_pos h3]; exact h4, rfl, rfl⟩, h5⟩

/-- The cells of a partition are those the vector assigns to it, in increasing order. -/
theorem cellsIn_eq {m : SerialMesh} {pv : List Nat}
    (h2 : m.numCells ≤ m.cells.length) (part : Nat) :
    cellsIn (entries m pv) part = (List.range m.numCells).filter fun c => pv[c]? = some part := by
  apply sorted_ext (cellsIn_sorted _ _) (List.Pairwise.filter _ List.pairwise_lt_range)
  intro x
  rw [cellsIn_mem]
  simp only [List.mem_filter, List.mem_range, decide_eq_true_eq, Prod.exists, entries_mem]
  constructor
  · rintro ⟨d, c, p, ⟨h3, h4, h5⟩, rfl, rfl⟩; exact ⟨h3, h5⟩
  · rintro ⟨h3, h4⟩
    exact ⟨m.cells[x], x, part, ⟨h3, List.getElem?_eq_getElem (by omega), h4⟩, rfl, rfl⟩

/-! ### Lookups -/

theorem find_some {l : List Nat} {x i : Nat} (h : find l x = some i) : l[i]? = some x := by
  unfold find at h
  rw [List.idxOf?_eq_some_iff] at h
  obtain ⟨hi, h1, -⟩ := h
  rw [List.getElem?_eq_getElem hi, h1]

theorem find_isSome {l : List Nat} {x : Nat} : (find l x).isSome ↔ x ∈ l := by
  unfold find; exact List.isSome_idxOf?

theorem find_of_mem {l : List Nat} {x : Nat} (h : x ∈ l) : ∃ i, find l x = some i :=
  Option.isSome_iff_exists.1 (find_isSome.2 h)

theorem sequence_iff {n : Nat} {f : Fin n → Option Nat} {g : Fin n → Nat} :
    sequence f = some g ↔ ∀ k, f k = some (g k) := by
  unfold sequence
  constructor
  · intro h
    split at h
    · simp only [Option.some.injEq] at h
      intro k; rw [← h]; simp
    · simp at h
  · intro h
    rw [dif_pos fun k => by rw [h k]; rfl]
    congr 1
    funext k
    simp [h k]

theorem mapM_iff {α β : Type} {f : α → Option β} {l : List α} {l' : List β} :
    l.mapM f = some l' ↔ List.Forall₂ (fun a b => f a = some b) l l' := by
  induction l generalizing l' with
  | nil =>
    simp only [List.mapM_nil, List.forall₂_nil_left_iff]
    exact ⟨fun h => (Option.some.inj h).symm, fun h => congrArg some h.symm⟩
  | cons a l ih =>
    simp only [List.mapM_cons, List.forall₂_cons_left_iff, Option.bind_eq_bind, Option.bind_eq_some_iff, ih]
    constructor
    · rintro ⟨b, hb, u, hu, h⟩; exact ⟨b, u, hb, hu, (Option.some.inj h).symm⟩
    · rintro ⟨b, u, hb, hu, rfl⟩; exact ⟨b, hb, u, hu, rfl⟩

theorem mapM_exists {α β : Type} {f : α → Option β} {l : List α} (h : ∀ a ∈ l, ∃ b, f a = some b) :
    ∃ l', l.mapM f = some l' := by
  induction l with
  | nil => exact ⟨[], rfl⟩
  | cons a l ih =>
    obtain ⟨b, hb⟩ := h a (by simp)
    obtain ⟨u, hu⟩ := ih fun x hx => h x (by simp [hx])
    exact ⟨b :: u, by simp [hb, hu]⟩

theorem forall₂_get {α β : Type} {R : α → β → Prop} {l : List α} {l' : List β} (h : List.Forall₂ R l l')
    {i : Nat} {a : α} (ha : l[i]? = some a) : ∃ b, l'[i]? = some b ∧ R a b := by
  induction h generalizing i with
  | nil => simp at ha
  | cons hab _ ih =>
    cases i with
    | zero => simp at ha; subst ha; exact ⟨_, by simp, hab⟩
    | succ i => simpa using ih (by simpa using ha)

theorem forall₂_get' {α β : Type} {R : α → β → Prop} {l : List α} {l' : List β} (h : List.Forall₂ R l l')
    {i : Nat} {b : β} (hb : l'[i]? = some b) : ∃ a, l[i]? = some a ∧ R a b := by
  induction h generalizing i with
  | nil => simp at hb
  | cons hab _ ih =>
    cases i with
    | zero => simp at hb; subst hb; exact ⟨_, by simp, hab⟩
    | succ i => simpa using ih (by simpa using hb)

theorem viaInt_of_lt {n : Nat} (h : n < 2 ^ 31) : viaInt n = n := by
  unfold viaInt
  rw [Nat.mod_eq_of_lt (by omega), if_pos h]

theorem viaInt_range (n : Nat) : viaInt n < 2 ^ 31 ∨ 2 ^ 64 - 2 ^ 31 ≤ viaInt n := by
  unfold viaInt
  split
  · left; assumption
  · right; omega

end Verif.MeshFile
