import Verif.Input.Spec
import Mathlib.Data.List.Induction

namespace Verif.Input

open Spec

/-! ## Characters -/

theorem isWhitespace_iff (c : Char) : isWhitespace c = true ↔ c = ' ' ∨ c = '\t' := by
  simp [isWhitespace]

theorem table_allowable : ∀ n < 128, isAllowable (Char.ofNat n) = true ↔ TokenChar (Char.ofNat n) := by
  unfold TokenChar; decide +kernel

theorem allowable_small : ∀ c ∈ allowableChar, c.toNat < 128 := by decide +kernel

theorem isAllowable_iff (c : Char) : isAllowable c = true ↔ TokenChar c := by
  by_cases h : c.toNat < 128
  · have := table_allowable c.toNat h
    rwa [Char.ofNat_toNat] at this
  · constructor
    · intro h1
      exact absurd (allowable_small c (by simpa [isAllowable] using h1)) h
    · intro h1
      exfalso; apply h
      rcases h1 with h1 | h1 | h1 | h1 | h1 | h1 | h1
      · omega
      · omega
      · omega
      all_goals (rw [h1]; decide)

theorem toupper_eq (c : Char) : toupper c = upper c := by
  unfold toupper upper
  have h1 : ('a' ≤ c) ↔ 97 ≤ c.toNat := by
    rw [Char.le_def, UInt32.le_iff_toNat_le]; rfl
  have h2 : (c ≤ 'z') ↔ c.toNat ≤ 122 := by
    rw [Char.le_def, UInt32.le_iff_toNat_le]; rfl
  simp only [h1, h2]
  rfl

theorem areStringsEqual_iff (s t : Str) : areStringsEqual s t = true ↔ SameKey s t := by
  unfold areStringsEqual SameKey
  induction s generalizing t with
  | nil => cases t <;> simp
  | cons a s ih =>
    cases t with
    | nil => simp
    | cons b t =>
      have := ih t
      simp only [List.length_cons, ne_eq, Nat.add_right_cancel_iff, List.zip_cons_cons,
        List.all_cons, List.map_cons, List.cons.injEq] at this ⊢
      rw [← this]
      simp only [toupper_eq]
      split <;> simp_all

theorem SameKey.symm {a b : Str} (h : SameKey a b) : SameKey b a := Eq.symm h
theorem SameKey.trans {a b c : Str} (h : SameKey a b) (h' : SameKey b c) : SameKey a c :=
  Eq.trans h h'
theorem SameKey.refl (a : Str) : SameKey a a := rfl

/-! ## One line -/

theorem token_not_ws {c : Char} (h : TokenChar c) : isWhitespace c = false := by
  by_contra hc
  rcases (isWhitespace_iff c).1 (by simpa using hc) with rfl | rfl <;>
    · unfold TokenChar at h; revert h; decide

theorem token_not_hash {c : Char} (h : TokenChar c) : (c != '#') = true := by
  by_contra hc
  have : c = '#' := by simpa using hc
  subst this
  unfold TokenChar at h; revert h; decide

theorem ws_not_hash {c : Char} (h : c = ' ' ∨ c = '\t') : (c != '#') = true := by
  rcases h with rfl | rfl <;> decide

theorem ws_not_allowable {c : Char} (h : c = ' ' ∨ c = '\t') : isAllowable c = false := by
  rcases h with rfl | rfl <;> decide

/-- `takeWhile` stops at the end of a good prefix followed by a bad head or nothing. -/
theorem takeWhile_app {p : Char → Bool} (a b : Str) (ha : ∀ c ∈ a, p c = true)
    (hb : ∀ c ∈ b.head?, p c = false) : (a ++ b).takeWhile p = a := by
  induction a with
  | nil => cases b with
    | nil => rfl
    | cons c b => simp at hb; simp [hb]
  | cons x a ih =>
    simp only [List.cons_append, List.takeWhile_cons]
    rw [if_pos (ha x (by simp)), ih (fun c hc => ha c (by simp [hc]))]

theorem dropWhile_app {p : Char → Bool} (a b : Str) (ha : ∀ c ∈ a, p c = true)
    (hb : ∀ c ∈ b.head?, p c = false) : (a ++ b).dropWhile p = b := by
  induction a with
  | nil => cases b with
    | nil => rfl
    | cons c b => simp at hb; simp [hb]
  | cons x a ih =>
    simp only [List.cons_append, List.dropWhile_cons]
    rw [if_pos (ha x (by simp)), ih (fun c hc => ha c (by simp [hc]))]

theorem comment_head {c : Str} (h : Comment c) : ∀ x ∈ c.head?, (x != '#') = false := by
  rcases h with rfl | ⟨t, rfl⟩ <;> simp

theorem blanks_ws {w : Str} (h : Blanks w) : ∀ c ∈ w, isWhitespace c = true :=
  fun c hc => (isWhitespace_iff c).2 (h c hc)

theorem takeWhile_all {p : Char → Bool} (l : Str) : ∀ c ∈ l.takeWhile p, p c = true := by
  induction l with
  | nil => simp
  | cons a l ih =>
    rw [List.takeWhile_cons]
    split
    · intro c hc
      rcases List.mem_cons.1 hc with rfl | hc
      · assumption
      · exact ih c hc
    · simp

theorem dropWhile_head {p : Char → Bool} (l : Str) : ∀ c ∈ (l.dropWhile p).head?, p c = false := by
  induction l with
  | nil => simp
  | cons a l ih =>
    rw [List.dropWhile_cons]
    split
    · exact ih
    · rename_i h; simpa using h

theorem comment_of_drop (l : Str) : Comment (l.dropWhile (· != '#')) := by
  have h := dropWhile_head (p := (· != '#')) l
  cases hl : l.dropWhile (· != '#') with
  | nil => exact Or.inl rfl
  | cons a t =>
    rw [hl] at h
    simp at h
    exact Or.inr ⟨t, by rw [h]⟩

theorem parse_blank {l : Str} (h : BlankLine l) : parseLine l = some ([], []) := by
  obtain ⟨w, c, hw, hc, rfl⟩ := h
  have h1 : getRidOfComments (w ++ c) = w :=
    takeWhile_app w c (fun x hx => ws_not_hash (hw x hx)) (comment_head hc)
  have h2 : (deleteWhitespace w).1 = [] := by
    have := dropWhile_app (p := isWhitespace) w [] (blanks_ws hw) (by simp)
    simpa [deleteWhitespace] using this
  simp [parseLine, h1, h2]

theorem parse_pair {l k v : Str} (h : PairLine l k v) : parseLine l = some (k, v) := by
  obtain ⟨w1, w2, w3, c, hw1, hw2, hne, hw3, hc, ⟨hk, hk'⟩, ⟨hv, hv'⟩, rfl⟩ := h
  have h1 : getRidOfComments (w1 ++ k ++ w2 ++ v ++ w3 ++ c) = w1 ++ (k ++ (w2 ++ (v ++ w3))) := by
    have := takeWhile_app (p := (· != '#')) (w1 ++ k ++ w2 ++ v ++ w3) c (by
      intro x hx
      simp only [List.mem_append] at hx
      rcases hx with (((hx | hx) | hx) | hx) | hx
      · exact ws_not_hash (hw1 x hx)
      · exact token_not_hash (hk' x hx)
      · exact ws_not_hash (hw2 x hx)
      · exact token_not_hash (hv' x hx)
      · exact ws_not_hash (hw3 x hx)) (comment_head hc)
    simpa [getRidOfComments, List.append_assoc] using this
  have headk : ∀ (t r : Str), t ≠ [] → (∀ c ∈ t, TokenChar c) →
      ∀ x ∈ (t ++ r).head?, isWhitespace x = false := by
    intro t r ht ht' x hx
    cases t with
    | nil => exact absurd rfl ht
    | cons a t => simp at hx; subst hx; exact token_not_ws (ht' a (by simp))
  have headw : ∀ (w r : Str), w ≠ [] → Blanks w → ∀ x ∈ (w ++ r).head?, isAllowable x = false := by
    intro w r hwne hw x hx
    cases w with
    | nil => exact absurd rfl hwne
    | cons a t => simp at hx; subst hx; exact ws_not_allowable (hw a (by simp))
  have h2 : (deleteWhitespace (w1 ++ (k ++ (w2 ++ (v ++ w3))))).1 = k ++ (w2 ++ (v ++ w3)) :=
    dropWhile_app _ _ (blanks_ws hw1) (headk k _ hk hk')
  have htok : ∀ (t : Str), (∀ c ∈ t, TokenChar c) → ∀ c ∈ t, isAllowable c = true :=
    fun t ht c hc => (isAllowable_iff c).2 (ht c hc)
  have h3 : popToken (k ++ (w2 ++ (v ++ w3))) = (k, w2 ++ (v ++ w3)) := by
    unfold popToken
    rw [takeWhile_app k _ (htok k hk') (headw w2 _ hne hw2),
      dropWhile_app k _ (htok k hk') (headw w2 _ hne hw2)]
  have h4 : deleteWhitespace (w2 ++ (v ++ w3)) = (v ++ w3, w2.length) := by
    unfold deleteWhitespace
    rw [takeWhile_app w2 _ (blanks_ws hw2) (headk v _ hv hv'),
      dropWhile_app w2 _ (blanks_ws hw2) (headk v _ hv hv')]
  have headw3 : ∀ x ∈ w3.head?, isAllowable x = false := by
    intro x hx
    cases w3 with
    | nil => simp at hx
    | cons a t => simp at hx; subst hx; exact ws_not_allowable (hw3 a (by simp))
  have h5 : popToken (v ++ w3) = (v, w3) := by
    unfold popToken
    rw [takeWhile_app v _ (htok v hv') headw3, dropWhile_app v _ (htok v hv') headw3]
  have h6 : (deleteWhitespace w3).1 = [] := by
    have := dropWhile_app (p := isWhitespace) w3 [] (blanks_ws hw3) (by simp)
    simpa [deleteWhitespace] using this
  unfold parseLine
  rw [h1]
  simp [h2, h3, h4, h5, h6, hk, hv, hne]

theorem parse_cases (l : Str) :
    (parseLine l = none ∧ ¬ BlankLine l ∧ ∀ k v, ¬ PairLine l k v) ∨
    (parseLine l = some ([], []) ∧ BlankLine l ∧ ∀ k v, ¬ PairLine l k v) ∨
    (∃ k v, parseLine l = some (k, v) ∧ k ≠ [] ∧ PairLine l k v) := by
  have nopair : ∀ r, parseLine l = r → (∀ k v, k ≠ [] → r ≠ some (k, v)) →
      ∀ k v, ¬ PairLine l k v := by
    intro r hr hne k v hp
    have hk : k ≠ [] := by
      obtain ⟨_, _, _, _, _, _, _, _, _, ⟨hk, _⟩, _⟩ := hp; exact hk
    exact hne k v hk (by rw [← hr]; exact parse_pair hp)
  have noblank : ∀ r, parseLine l = r → r ≠ some ([], []) → ¬ BlankLine l := by
    intro r hr hne hb
    exact hne (by rw [← hr]; exact parse_blank hb)
  have hl : l = getRidOfComments l ++ l.dropWhile (· != '#') :=
    (List.takeWhile_append_dropWhile).symm
  have hb1 : getRidOfComments l = (getRidOfComments l).takeWhile isWhitespace
      ++ (deleteWhitespace (getRidOfComments l)).1 := (List.takeWhile_append_dropWhile).symm
  have hws : ∀ s : Str, Blanks (s.takeWhile isWhitespace) :=
    fun s c hc => (isWhitespace_iff c).1 (takeWhile_all s c hc)
  have htk : ∀ s : Str, ∀ c ∈ s.takeWhile isAllowable, TokenChar c :=
    fun s c hc => (isAllowable_iff c).1 (takeWhile_all s c hc)
  have hnone : parseLine l = none →
      (parseLine l = none ∧ ¬ BlankLine l ∧ ∀ k v, ¬ PairLine l k v) := fun h =>
    ⟨h, noblank none h (by simp), nopair none h (by simp)⟩
  by_cases e1 : (deleteWhitespace (getRidOfComments l)).1 = []
  · have hp : parseLine l = some ([], []) := by simp [parseLine, e1]
    refine Or.inr (Or.inl ⟨hp, ⟨_, _, hws (getRidOfComments l), comment_of_drop l, ?_⟩, nopair _ hp (by
      intro k v hk hc; simp at hc; exact hk hc.1)⟩)
    rw [e1, List.append_nil] at hb1
    rw [← hb1]; exact hl
  · generalize hB : (deleteWhitespace (getRidOfComments l)).1 = B at *
    by_cases e2 : (popToken B).1 = []
    · exact Or.inl (hnone (by simp [parseLine, hB, e1, e2]))
    · by_cases e3 : (deleteWhitespace (popToken B).2).2 = 0
      · exact Or.inl (hnone (by simp [parseLine, hB, e1, e2, e3]))
      · by_cases e4 : (popToken (deleteWhitespace (popToken B).2).1).1 = []
        · exact Or.inl (hnone (by simp [parseLine, hB, e1, e2, e3, e4]))
        · by_cases e5 : (deleteWhitespace (popToken (deleteWhitespace (popToken B).2).1).2).1 = []
          · refine Or.inr (Or.inr ⟨_, (popToken (deleteWhitespace (popToken B).2).1).1, ?_, e2, ?_⟩)
            · simp [parseLine, hB, e1, e2, e3, e4, e5]
            · refine ⟨_, _, _, _, hws (getRidOfComments l), hws (popToken B).2, ?_,
                hws (popToken (deleteWhitespace (popToken B).2).1).2, comment_of_drop l,
                ⟨e2, htk _⟩, ⟨e4, htk _⟩, ?_⟩
              · intro h0; apply e3; simp [deleteWhitespace, h0]
              · have s1 : B = (popToken B).1 ++ (popToken B).2 :=
                  (List.takeWhile_append_dropWhile).symm
                have s2 : (popToken B).2 = (popToken B).2.takeWhile isWhitespace
                    ++ (deleteWhitespace (popToken B).2).1 :=
                  (List.takeWhile_append_dropWhile).symm
                generalize (deleteWhitespace (popToken B).2).1 = C at *
                have s3 : C = (popToken C).1 ++ (popToken C).2 :=
                  (List.takeWhile_append_dropWhile).symm
                have s4 : (popToken C).2 = (popToken C).2.takeWhile isWhitespace
                    ++ (deleteWhitespace (popToken C).2).1 :=
                  (List.takeWhile_append_dropWhile).symm
                rw [e5, List.append_nil] at s4
                calc l = getRidOfComments l ++ l.dropWhile (· != '#') := hl
                  _ = ((getRidOfComments l).takeWhile isWhitespace ++ ((popToken B).1
                        ++ ((popToken B).2.takeWhile isWhitespace ++ ((popToken C).1
                          ++ (popToken C).2.takeWhile isWhitespace))))
                      ++ l.dropWhile (· != '#') := by
                        rw [← s4, ← s3, ← s2, ← s1, ← hb1]
                  _ = _ := by simp [List.append_assoc]
          · exact Or.inl (hnone (by simp [parseLine, hB, e1, e2, e3, e4, e5]))

theorem pair_unique {l k v k' v' : Str} (h : PairLine l k v) (h' : PairLine l k' v') :
    k = k' ∧ v = v' := by
  have := (parse_pair h).symm.trans (parse_pair h')
  simpa using this

theorem pair_key_ne {l k v : Str} (h : PairLine l k v) : k ≠ [] := by
  obtain ⟨_, _, _, _, _, _, _, _, _, ⟨hk, _⟩, _⟩ := h; exact hk

theorem blank_not_pair {l k v : Str} (h : BlankLine l) : ¬ PairLine l k v := by
  intro hp
  have := (parse_blank h).symm.trans (parse_pair hp)
  simp at this
  exact pair_key_ne hp this.1

/-! ## Lines of a text -/

theorem getlines_isLines (text : Str) : IsLines text (getlines text) := by
  induction text with
  | nil => exact ⟨by simp [getlines], Or.inl (by simp [getlines])⟩
  | cons c cs ih =>
    obtain ⟨h1, h2⟩ := ih
    by_cases hc : c = '\n'
    · subst hc
      have hg : getlines ('\n' :: cs) = [] :: getlines cs := by simp [getlines]
      rw [hg]
      refine ⟨by simpa using h1, ?_⟩
      rcases h2 with h2 | ⟨init, last, hl, he, ht⟩
      · exact Or.inl (by simpa using h2)
      · exact Or.inr ⟨[] :: init, last, hl, by simp [he], by simp [ht]⟩
    · cases hgl : getlines cs with
      | nil =>
        have hg : getlines (c :: cs) = [[c]] := by simp [getlines, hc, hgl]
        rw [hg]
        rw [hgl] at h2
        have hcs : cs = [] := by
          rcases h2 with h2 | ⟨init, last, hl, he, ht⟩
          · simpa using h2
          · simp at he
        refine ⟨by simpa using fun h => hc h.symm, Or.inr ⟨[], [c], by simp, by simp, by simp [hcs]⟩⟩
      | cons l ls =>
        have hg : getlines (c :: cs) = (c :: l) :: ls := by simp [getlines, hc, hgl]
        rw [hg]
        rw [hgl] at h1 h2
        constructor
        · intro x hx
          simp only [List.mem_cons] at hx
          rcases hx with rfl | hx
          · have := h1 l (by simp)
            simp only [List.mem_cons, not_or]
            exact ⟨fun h => hc h.symm, this⟩
          · exact h1 x (by simp [hx])
        · rcases h2 with h2 | ⟨init, last, hl, he, ht⟩
          · exact Or.inl (by simp [h2])
          · cases init with
            | nil =>
              simp at he
              refine Or.inr ⟨[], c :: last, by simp, by simp [he], by simp at ht; simp [ht]⟩
            | cons i init =>
              simp at he
              refine Or.inr ⟨(c :: i) :: init, last, hl, by simp [he], by simp at ht; simp [ht]⟩

theorem getlines_line (l rest : Str) (h : '\n' ∉ l) :
    getlines (l ++ '\n' :: rest) = l :: getlines rest := by
  induction l with
  | nil => simp [getlines]
  | cons c l ih =>
    simp only [List.mem_cons, not_or] at h
    have hc : c ≠ '\n' := fun hh => h.1 hh.symm
    simp [getlines, hc, ih h.2]

theorem getlines_last (l : Str) (hne : l ≠ []) (h : '\n' ∉ l) : getlines l = [l] := by
  induction l with
  | nil => exact absurd rfl hne
  | cons c l ih =>
    simp only [List.mem_cons, not_or] at h
    have hc : c ≠ '\n' := fun hh => h.1 hh.symm
    cases l with
    | nil => simp [getlines, hc]
    | cons d l => simp only [getlines, hc, if_false] at ih ⊢; rw [ih (by simp) h.2]

theorem getlines_unique {text : Str} {lines : List Str} (h : IsLines text lines) :
    getlines text = lines := by
  obtain ⟨h1, h2⟩ := h
  rcases h2 with rfl | ⟨init, last, hl, rfl, rfl⟩
  · induction lines with
    | nil => simp [getlines]
    | cons l ls ih =>
      simp only [List.map_cons, List.flatten_cons, List.append_assoc, List.singleton_append]
      rw [getlines_line l _ (h1 l (by simp)), ih (fun x hx => h1 x (by simp [hx]))]
  · induction init with
    | nil => simpa using getlines_last last hl (h1 last (by simp))
    | cons l ls ih =>
      simp only [List.map_cons, List.flatten_cons, List.append_assoc, List.cons_append,
        List.nil_append]
      rw [getlines_line l _ (h1 l (by simp)), ih (fun x hx => h1 x (by simp at hx; simp; tauto))]

/-! ## The reading loop -/

/-- `(k, v)` is the first pair of the lines whose key is `k` up to case. -/
def First (lines : List Str) (k v : Str) : Prop :=
  ∃ pre l post, lines = pre ++ l :: post ∧ PairLine l k v ∧
    ∀ l' ∈ pre, ∀ k' v', PairLine l' k' v' → ¬ SameKey k' k

structure Inv (lines : List Str) (ps : List (Str × Str)) (s : Loop) : Prop where
  keys : s.keys = ps.map Prod.fst
  vals : s.vals = ps.map Prod.snd
  first : ∀ k v, (k, v) ∈ ps ↔ First lines k v
  distinct : ps.Pairwise fun a b => ¬ SameKey a.1 b.1
  ok : s.ok = true ↔ WellFormed lines

theorem findKey_some_iff (keys : List Str) (key : Str) :
    (findKey keys key).isSome = true ↔ ∃ k ∈ keys, SameKey k key := by
  unfold findKey
  rw [List.findIdx?_isSome]
  simp only [List.any_eq_true, areStringsEqual_iff]
  exact ⟨fun ⟨k, h, h'⟩ => ⟨k, h, h'.symm⟩, fun ⟨k, h, h'⟩ => ⟨k, h, h'.symm⟩⟩

theorem exists_first {α : Type} (Q : α → Prop) (l : List α) (h : ∃ x ∈ l, Q x) :
    ∃ pre x post, l = pre ++ x :: post ∧ Q x ∧ ∀ y ∈ pre, ¬ Q y := by
  classical
  induction l with
  | nil => simp at h
  | cons a l ih =>
    by_cases ha : Q a
    · exact ⟨[], a, l, rfl, ha, by simp⟩
    · obtain ⟨x, hx, hq⟩ := h
      have : ∃ x ∈ l, Q x := by
        rcases List.mem_cons.1 hx with rfl | hx
        · exact absurd hq ha
        · exact ⟨x, hx, hq⟩
      obtain ⟨pre, x, post, rfl, hq, hpre⟩ := ih this
      refine ⟨a :: pre, x, post, rfl, hq, ?_⟩
      intro y hy
      rcases List.mem_cons.1 hy with rfl | hy
      · exact ha
      · exact hpre y hy

theorem First.mono {lines : List Str} {k v : Str} (h : First lines k v) (l : Str) :
    First (lines ++ [l]) k v := by
  obtain ⟨pre, x, post, rfl, h1, h2⟩ := h
  exact ⟨pre, x, post ++ [l], by simp, h1, h2⟩

theorem first_append {lines : List Str} {l k v : Str} (h : First (lines ++ [l]) k v) :
    First lines k v ∨ (PairLine l k v ∧ ∀ l' ∈ lines, ∀ k' v', PairLine l' k' v' → ¬ SameKey k' k) := by
  obtain ⟨pre, x, post, he, h1, h2⟩ := h
  rcases List.eq_nil_or_concat post with hp | ⟨post', y, hp⟩
  · subst hp
    have h3 : lines ++ [l] = (pre) ++ [x] := by simpa using he
    have h4 := List.append_inj' h3 rfl
    obtain ⟨rfl, h5⟩ := h4
    have h6 : l = x := by simpa using h5
    subst h6
    exact Or.inr ⟨h1, h2⟩
  · subst hp
    have h3 : lines ++ [l] = (pre ++ x :: post') ++ [y] := by simpa using he
    have h4 := List.append_inj' h3 rfl
    exact Or.inl ⟨pre, x, post', h4.1, h1, h2⟩

/-- A pair line in `lines` whose key is `key` up to case means some first pair with such a key. -/
theorem first_of_mem {lines : List Str} {l k v key : Str} (hl : l ∈ lines) (hp : PairLine l k v)
    (hk : SameKey k key) : ∃ k' v', First lines k' v' ∧ SameKey k' key := by
  obtain ⟨pre, x, post, he, ⟨k', v', hx, hs⟩, hpre⟩ :=
    exists_first (fun l => ∃ k v, PairLine l k v ∧ SameKey k key) lines ⟨l, hl, k, v, hp, hk⟩
  refine ⟨k', v', ⟨pre, x, post, he, hx, ?_⟩, hs⟩
  intro l' hl' k'' v'' hp'' hsame
  exact hpre l' hl' ⟨k'', v'', hp'', hsame.trans hs⟩

theorem First.mem {lines : List Str} {k v : Str} (h : First lines k v) :
    ∃ l ∈ lines, PairLine l k v := by
  obtain ⟨pre, x, post, rfl, h1, _⟩ := h
  exact ⟨x, by simp, h1⟩

theorem wf_append (lines : List Str) (l : Str) : WellFormed (lines ++ [l]) ↔
    WellFormed lines ∧ (BlankLine l ∨ ∃ k v, PairLine l k v) ∧
      ∀ l0 ∈ lines, ∀ k v k' v', PairLine l0 k v → PairLine l k' v' → ¬ SameKey k k' := by
  unfold WellFormed
  rw [List.pairwise_append]
  simp only [List.mem_append, List.mem_singleton, List.pairwise_singleton]
  constructor
  · rintro ⟨h1, h2, _, h3⟩
    exact ⟨⟨fun x hx => h1 x (Or.inl hx), h2⟩, h1 l (Or.inr rfl), fun l0 h0 => h3 l0 h0 l rfl⟩
  · rintro ⟨⟨h1, h2⟩, h3, h4⟩
    refine ⟨?_, h2, trivial, fun a ha b hb => hb ▸ h4 a ha⟩
    rintro x (hx | rfl)
    · exact h1 x hx
    · exact h3

theorem inv_step {lines : List Str} {ps : List (Str × Str)} {s : Loop} (h : Inv lines ps s)
    (l : Str) : ∃ ps', Inv (lines ++ [l]) ps' (readLine s l) := by
  rcases parse_cases l with ⟨hp, hb, hn⟩ | ⟨hp, hb, hn⟩ | ⟨k, v, hp, hk, hpl⟩
  · refine ⟨ps, ?_⟩
    have : readLine s l = { s with ok := false } := by simp [readLine, hp]
    rw [this]
    refine ⟨h.keys, h.vals, fun k v => ?_, h.distinct, ?_⟩
    · rw [h.first]
      exact ⟨fun hf => hf.mono l, fun hf => (first_append hf).resolve_right fun hr => hn k v hr.1⟩
    · simp only [Bool.false_eq_true, false_iff, wf_append]
      rintro ⟨_, hc, _⟩
      rcases hc with hc | ⟨k, v, hc⟩
      · exact hb hc
      · exact hn k v hc
  · refine ⟨ps, ?_⟩
    have hnone : (findKey s.keys []).isSome = false := by
      rw [← Bool.not_eq_true, findKey_some_iff]
      rintro ⟨k, hk, hs⟩
      rw [h.keys, List.mem_map] at hk
      obtain ⟨⟨k', v⟩, hm, rfl⟩ := hk
      obtain ⟨x, _, hx⟩ := ((h.first k' v).1 hm).mem
      apply pair_key_ne hx
      have := hs
      simp [SameKey] at this
      exact this
    have : readLine s l = s := by simp [readLine, hp, hnone]
    rw [this]
    refine ⟨h.keys, h.vals, fun k v => ?_, h.distinct, ?_⟩
    · rw [h.first]
      exact ⟨fun hf => hf.mono l, fun hf => (first_append hf).resolve_right fun hr => hn k v hr.1⟩
    · rw [h.ok, wf_append]
      refine ⟨fun hw => ⟨hw, Or.inl hb, fun l0 _ k v k' v' _ hp' => absurd hp' (hn k' v')⟩,
        fun hw => hw.1⟩
  · by_cases hdup : (findKey s.keys k).isSome = true
    · refine ⟨ps, ?_⟩
      have : readLine s l = { s with ok := false } := by simp [readLine, hp, hdup]
      rw [this]
      obtain ⟨k0, hk0, hs⟩ := (findKey_some_iff _ _).1 hdup
      rw [h.keys, List.mem_map] at hk0
      obtain ⟨⟨k0', v0⟩, hm, rfl⟩ := hk0
      obtain ⟨x, hx, hxp⟩ := ((h.first k0' v0).1 hm).mem
      refine ⟨h.keys, h.vals, fun k1 v1 => ?_, h.distinct, ?_⟩
      · rw [h.first]
        refine ⟨fun hf => hf.mono l, fun hf => (first_append hf).resolve_right fun hr => ?_⟩
        obtain ⟨rfl, rfl⟩ := pair_unique hpl hr.1
        exact hr.2 x hx k0' v0 hxp hs
      · simp only [Bool.false_eq_true, false_iff, wf_append]
        rintro ⟨_, _, hc⟩
        exact hc x hx k0' v0 k v hxp hpl hs
    · refine ⟨ps ++ [(k, v)], ?_⟩
      have : readLine s l = { s with keys := s.keys ++ [k], vals := s.vals ++ [v] } := by
        simp [readLine, hp, hdup, hk]
      rw [this]
      have hfresh : ∀ l' ∈ lines, ∀ k' v', PairLine l' k' v' → ¬ SameKey k' k := by
        intro l' hl' k' v' hp' hs
        obtain ⟨k2, v2, hf, hs2⟩ := first_of_mem hl' hp' hs
        apply hdup
        rw [findKey_some_iff]
        exact ⟨k2, by rw [h.keys, List.mem_map]; exact ⟨(k2, v2), (h.first k2 v2).2 hf, rfl⟩, hs2⟩
      refine ⟨by simp [h.keys], by simp [h.vals], fun k1 v1 => ?_, ?_, ?_⟩
      · rw [List.mem_append, h.first]
        constructor
        · rintro (hf | hf)
          · exact hf.mono l
          · have : k1 = k ∧ v1 = v := by simpa using hf
            obtain ⟨rfl, rfl⟩ := this
            exact ⟨lines, l, [], rfl, hpl, hfresh⟩
        · intro hf
          rcases first_append hf with hf | ⟨hf, _⟩
          · exact Or.inl hf
          · obtain ⟨rfl, rfl⟩ := pair_unique hpl hf
            exact Or.inr (by simp)
      · rw [List.pairwise_append]
        refine ⟨h.distinct, by simp, ?_⟩
        rintro ⟨a, b⟩ ha c hc
        have : c = (k, v) := by simpa using hc
        subst this
        obtain ⟨x, hx, hxp⟩ := ((h.first a b).1 ha).mem
        exact hfresh x hx a b hxp
      · change s.ok = true ↔ _
        rw [h.ok, wf_append]
        refine ⟨fun hw => ⟨hw, Or.inr ⟨k, v, hpl⟩, ?_⟩, fun hw => hw.1⟩
        intro l0 hl0 k1 v1 k2 v2 hp1 hp2
        obtain ⟨rfl, rfl⟩ := pair_unique hpl hp2
        exact hfresh l0 hl0 k1 v1 hp1

theorem inv_nil : Inv [] [] ⟨[], [], true⟩ where
  keys := rfl
  vals := rfl
  first := by
    intro k v
    constructor
    · simp
    · rintro ⟨pre, l, post, h, _⟩; simp at h
  distinct := List.Pairwise.nil
  ok := by simp [WellFormed]

theorem inv_fold (lines : List Str) :
    ∃ ps, Inv lines ps (lines.foldl readLine ⟨[], [], true⟩) := by
  induction lines using List.reverseRecOn with
  | nil => exact ⟨[], inv_nil⟩
  | append_singleton lines l ih =>
    obtain ⟨ps, h⟩ := ih
    rw [List.foldl_append]
    exact inv_step h l

theorem inv_findKey {lines : List Str} {ps : List (Str × Str)} {s : Loop} (h : Inv lines ps s)
    (key : Str) :
    (findKey s.keys key = none ∧ Silent lines key) ∨
    ∃ i v, findKey s.keys key = some i ∧ s.vals[i]? = some v ∧ Gives lines key v := by
  cases hf : findKey s.keys key with
  | none =>
    refine Or.inl ⟨rfl, ?_⟩
    intro l hl k v hp hs
    obtain ⟨k2, v2, hf2, hs2⟩ := first_of_mem hl hp hs
    have : (findKey s.keys key).isSome = true := by
      rw [findKey_some_iff]
      exact ⟨k2, by rw [h.keys, List.mem_map]; exact ⟨(k2, v2), (h.first k2 v2).2 hf2, rfl⟩, hs2⟩
    rw [hf] at this; simp at this
  | some i =>
    refine Or.inr ?_
    unfold findKey at hf
    rw [List.findIdx?_eq_some_iff_getElem] at hf
    obtain ⟨hi, hs, _⟩ := hf
    have hlen : s.keys.length = ps.length := by rw [h.keys, List.length_map]
    have hi' : i < ps.length := by omega
    have hk : s.keys[i] = ps[i].1 := by simp [h.keys]
    rw [hk, areStringsEqual_iff] at hs
    refine ⟨i, ps[i].2, rfl, by simp [h.vals, hi'], ?_⟩
    obtain ⟨pre, l, post, he, hp, hpre⟩ := (h.first ps[i].1 ps[i].2).1 (List.getElem_mem hi')
    exact ⟨pre, l, post, ps[i].1, he, hp, hs.symm, fun l' hl' k' v' hp' hsame =>
      hpre l' hl' k' v' hp' (hsame.trans hs)⟩

end Verif.Input
