import Verif.MeshFile.Model
import Mathlib.Tactic.FinCases
import Mathlib.Tactic.Ring
import Mathlib.Data.List.GetD
import Mathlib.Data.List.Induction

/-!
# Lemmas on mesh files
-/
namespace Verif.MeshFile

open Verif.Bytes

/-- Values of 64 bits. -/
def Words (ws : List Nat) : Prop := ∀ w ∈ ws, w < 2 ^ 64

@[simp] theorem words_append {a b : List Nat} : Words (a ++ b) ↔ Words a ∧ Words b := by
  simp only [Words, List.mem_append]
  constructor
  · intro h; exact ⟨fun w hw => h w (.inl hw), fun w hw => h w (.inr hw)⟩
  · rintro ⟨h1, h2⟩ w (hw | hw) <;> [exact h1 w hw; exact h2 w hw]

theorem words_flatten {a : List (List Nat)} : Words a.flatten ↔ ∀ l ∈ a, Words l := by
  simp only [Words, List.mem_flatten]
  constructor
  · intro h l hl w hw; exact h w ⟨l, hl, hw⟩
  · rintro h w ⟨l, hl, hw⟩; exact h l hl w hw

@[simp] theorem writeWords_length (ws : List Nat) : (writeWords ws).length = 8 * ws.length := by
  unfold writeWords
  induction ws with
  | nil => rfl
  | cons w ws ih => rw [List.flatMap_cons, List.length_append, ih, enc_length, List.length_cons]; ring

@[simp] theorem writeWords_append (a b : List Nat) : writeWords (a ++ b) = writeWords a ++ writeWords b := by
  simp [writeWords]

@[simp] theorem writeWords_nil : writeWords [] = [] := rfl

theorem writeWords_cons (w : Nat) (ws : List Nat) : writeWords (w :: ws) = enc64 w ++ writeWords ws := rfl

theorem wordAt_drop (b : List UInt8) (i k : Nat) : wordAt (b.drop (8 * k)) i = wordAt b (k + i) := by
  unfold wordAt
  rw [List.drop_drop, ← Nat.mul_add]

theorem words_of_write {ws : List Nat} (h : Words ws) (rest : List UInt8) :
    (List.range ws.length).map (wordAt (writeWords ws ++ rest)) = ws := by
  induction ws with
  | nil => rfl
  | cons w ws ih =>
    have ih := ih fun x hx => h x (by simp [hx])
    rw [List.length_cons, List.range_succ_eq_map, List.map_cons, List.map_map]
    have e : (writeWords (w :: ws) ++ rest).drop (8 * 1) = writeWords ws ++ rest := by
      rw [writeWords_cons, List.append_assoc]
      exact List.drop_left' (enc_length 8 w)
    rw [List.cons.injEq]
    constructor
    · unfold wordAt
      rw [Nat.mul_zero, List.drop_zero, writeWords_cons, List.append_assoc,
        List.take_left' (enc_length 8 w), dec_enc64 (h w (by simp))]
    · rw [← e] at ih
      refine Eq.trans ?_ ih
      apply List.map_congr_left
      intro i _
      rw [wordAt_drop, Function.comp_apply, Nat.succ_eq_add_one, Nat.add_comm 1]

theorem wordAt_lt {b : List UInt8} {i : Nat} : wordAt b i < 2 ^ 64 := by
  unfold wordAt
  refine lt_of_lt_of_le (dec_lt _) ?_
  rw [show (2 ^ 64 : Nat) = 256 ^ 8 by norm_num]
  exact Nat.pow_le_pow_right (by norm_num) (by rw [List.length_take]; omega)

theorem write_words {n : Nat} {b : List UInt8} (h : 8 * n ≤ b.length) :
    writeWords ((List.range n).map (wordAt b)) ++ b.drop (8 * n) = b := by
  induction n with
  | zero => simp
  | succ n ih =>
    rw [List.range_succ, List.map_append, writeWords_append, List.append_assoc]
    have e : writeWords ([n].map (wordAt b)) ++ b.drop (8 * (n + 1)) = b.drop (8 * n) := by
      rw [List.map_singleton, writeWords_cons, writeWords_nil, List.append_nil]
      have hl : ((b.drop (8 * n)).take 8).length = 8 := by
        rw [List.length_take, List.length_drop]; omega
      have : enc64 (wordAt b n) = (b.drop (8 * n)).take 8 := by
        unfold wordAt enc64
        have := enc_dec ((b.drop (8 * n)).take 8)
        rwa [hl] at this
      rw [this, Nat.mul_add, Nat.mul_one, ← List.drop_drop, List.take_append_drop]
    rw [e, ih (by omega)]

/-- What `fread` of words returns. -/
theorem readWords_iff {n : Nat} {b rest : List UInt8} {ws : List Nat} :
    readWords n b = some (ws, rest) ↔ ws.length = n ∧ Words ws ∧ b = writeWords ws ++ rest := by
  unfold readWords
  constructor
  · intro h
    split at h
    · rename_i hl
      simp only [Option.some.injEq, Prod.mk.injEq] at h
      obtain ⟨rfl, rfl⟩ := h
      refine ⟨by simp, ?_, (write_words hl).symm⟩
      intro w hw
      obtain ⟨i, -, rfl⟩ := List.mem_map.1 hw
      exact wordAt_lt
    · simp at h
  · rintro ⟨rfl, hw, rfl⟩
    rw [if_pos (by simp), words_of_write hw, List.drop_left' (by simp)]

theorem readArray_iff {n k : Nat} {b rest : List UInt8} {ws : List Nat} :
    readArray n k b = some (ws, rest) ↔
      ws.length = n * k ∧ n * k < 2 ^ 64 ∧ Words ws ∧ b = writeWords ws ++ rest := by
  unfold readArray
  split
  · rw [readWords_iff]; tauto
  · constructor
    · intro h; simp at h
    · rintro ⟨_, h, _⟩; contradiction

theorem readName_iff {name : List UInt8} (hn : name.length = 32) {b rest : List UInt8} :
    readName name b = some rest ↔ b = name ++ rest := by
  unfold readName
  constructor
  · intro h
    split at h
    · rename_i hh
      simp only [Option.some.injEq] at h
      rw [← hh.2, ← h, List.take_append_drop]
    · simp at h
  · rintro rfl
    rw [if_pos ⟨by simp [hn], List.take_left' hn⟩, List.drop_left' hn]

theorem firstN_length {α : Type} (l : List α) : firstN l.length l = some l := by
  simp [firstN]

/-! ### Arrays of records -/

theorem flatMap_get {α : Type} {f : α → List Nat} {k : Nat} (hf : ∀ x, (f x).length = k) (l : List α)
    {i j : Nat} (hi : i < l.length) (hj : j < k) : get (l.flatMap f) (i * k + j) = get (f l[i]) j := by
  unfold get
  induction l generalizing i with
  | nil => simp at hi
  | cons x l ih =>
    rw [List.flatMap_cons]
    cases i with
    | zero =>
      rw [List.getD_append _ _ _ _ (by rw [hf]; omega)]
      simp
    | succ i =>
      rw [List.getD_append_right _ _ _ _ (by rw [hf]; nlinarith)]
      rw [hf, show (i + 1) * k + j - k = i * k + j by rw [Nat.add_mul]; omega]
      rw [ih (by simpa using hi)]
      rfl

theorem flatMap_length {α : Type} {f : α → List Nat} {k : Nat} (hf : ∀ x, (f x).length = k) (l : List α) :
    (l.flatMap f).length = l.length * k := by
  induction l with
  | nil => simp
  | cons x l ih => rw [List.flatMap_cons, List.length_append, ih, hf, List.length_cons]; ring

theorem flatMap_of_get {n k : Nat} {f : Nat → List Nat} {ws : List Nat} (hl : ws.length = n * k)
    (hf : ∀ i, (f i).length = k) (hg : ∀ i < n, ∀ j < k, get (f i) j = get ws (i * k + j)) :
    (List.range n).flatMap f = ws := by
  have hlen : ((List.range n).flatMap f).length = n * k := by
    rw [flatMap_length hf, List.length_range]
  apply List.ext_getElem (by rw [hlen, hl])
  intro m h1 h2
  have hm : m < n * k := by omega
  have hk : 0 < k := by rcases Nat.eq_zero_or_pos k with h | h; · subst h; simp at hm
                        · exact h
  have hi : m / k < n := Nat.div_lt_of_lt_mul (by rw [Nat.mul_comm]; exact hm)
  have hj : m % k < k := Nat.mod_lt _ hk
  have e : m / k * k + m % k = m := by rw [Nat.mul_comm]; exact Nat.div_add_mod m k
  have a1 := flatMap_get hf (List.range n) (i := m / k) (j := m % k) (by simpa using hi) hj
  have a2 := hg _ hi _ hj
  rw [List.getElem_range] at a1
  rw [a2, e] at a1
  unfold get at a1
  rwa [List.getD_eq_getElem _ _ h1, List.getD_eq_getElem _ _ h2] at a1

/-- Records of `k` words and their unpacking are inverse to each other. -/
theorem unpack_iff {α : Type} {k : Nat} {words : α → List Nat} {unpack : List Nat → Nat → α}
    (hw : ∀ x, (words x).length = k)
    (h1 : ∀ ws i x, (∀ j < k, get ws (i * k + j) = get (words x) j) → unpack ws i = x)
    (h2 : ∀ ws i, ∀ j < k, get (words (unpack ws i)) j = get ws (i * k + j))
    {n : Nat} {ws : List Nat} {l : List α} :
    (ws.length = n * k ∧ l = (List.range n).map (unpack ws)) ↔ (l.length = n ∧ ws = l.flatMap words) := by
  constructor
  · rintro ⟨hl, rfl⟩
    refine ⟨by simp, ?_⟩
    rw [List.flatMap_map]
    exact (flatMap_of_get hl (fun i => hw _) fun i _ j hj => h2 ws i j hj).symm
  · rintro ⟨rfl, rfl⟩
    refine ⟨flatMap_length hw l, ?_⟩
    apply List.ext_getElem (by simp)
    intro i hi _
    rw [List.getElem_map, List.getElem_range]
    exact (h1 _ _ _ fun j hj => flatMap_get hw l hi hj).symm

end Verif.MeshFile
