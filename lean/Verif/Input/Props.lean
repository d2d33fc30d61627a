import Verif.Input.Lemmas
import Verif.Input.Ints
import Mathlib.Data.Int.ModEq

/-!
# Input deck properties (C03-C07)
-/
namespace Verif.Input

open Spec

/-! ## C04: which files are accepted -/

/-- C04: for a file that can be opened, a fresh reader reports a parse error exactly if some line
is neither blank nor a pair, or some key (up to case) is on two lines. -/
theorem readFile_accepts_iff (fs : Str → Option Str) (f text : Str) (lines : List Str)
    (hfs : fs f = some text) (hl : IsLines text lines) :
    ((readFile fs Reader.new f).2 = none ↔ WellFormed lines) ∧
    ((readFile fs Reader.new f).2 = some .parseFileError ↔ ¬ WellFormed lines) := by
  obtain ⟨ps, h⟩ := inv_fold lines
  have hg := getlines_unique hl
  have hok := h.ok
  unfold readFile
  simp only [Reader.new, hfs, hg, Bool.false_eq_true, if_false]
  generalize List.foldl readLine ⟨[], [], true⟩ lines = s at *
  by_cases hs : s.ok = true
  · simp [hs, hok.1 hs]
  · have : ¬ WellFormed lines := fun hw => hs (hok.2 hw)
    simp [hs, this]

/-- Every text has lines, and only one list of lines. -/
theorem lines_exist_unique (text : Str) : ∃ lines, IsLines text lines ∧
    ∀ lines', IsLines text lines' → lines' = lines :=
  ⟨getlines text, getlines_isLines text, fun _ h => (getlines_unique h).symm⟩

/-- `"a 1 # x\n\n b\t2"` is accepted, `"a 1 2"` and `"a 1\nA 2\n"` are not. -/
example :
    (readFile (fun _ => some "a 1 # x\n\n b\t2".toList) Reader.new []).2 = none ∧
    (readFile (fun _ => some "a 1 2".toList) Reader.new []).2 = some .parseFileError ∧
    (readFile (fun _ => some "a 1\nA 2\n".toList) Reader.new []).2 = some .parseFileError := by
  decide +kernel

/-! ## C05: the reader against the abstract machine -/

/-- Concrete and abstract states: what was read determines the stored pairs. -/
inductive Rel : Reader → St → Prop
  | new : Rel Reader.new none
  | read {f text lines ps s} : IsLines text lines → Inv lines ps s →
      Rel ⟨s.keys, s.vals, true, f⟩ (some (f, text))

theorem rel_getString {r : Reader} {st : St} (h : Rel r st) (key : Str) :
    (st = none ∧ getString r key = .error .fileNotRead) ∨
    (∃ f text lines, st = some (f, text) ∧ IsLines text lines ∧ Silent lines key ∧
      getString r key = .error .keyNotFound) ∨
    (∃ f text lines v, st = some (f, text) ∧ IsLines text lines ∧ Gives lines key v ∧
      getString r key = .ok v) := by
  cases h with
  | new => exact Or.inl ⟨rfl, rfl⟩
  | read hl hi =>
    rename_i f text lines ps s
    rcases inv_findKey hi key with ⟨hf, hs⟩ | ⟨i, v, hf, hv, hg⟩
    · exact Or.inr (Or.inl ⟨_, _, _, rfl, hl, hs, by simp [getString, hf]⟩)
    · exact Or.inr (Or.inr ⟨_, _, _, v, rfl, hl, hg, by simp [getString, hf, hv]⟩)

/-- A lookup followed by a conversion. -/
def lookup {α : Type} (conv : Str → Option α) (r : Reader) (key : Str) : Except Exn α :=
  match getString r key with
  | .error e => .error e
  | .ok v => match conv v with
    | some x => .ok x
    | none => .error .stringConversionError

theorem rel_readFile {fs : Str → Option Str} {f text : Str} (hfs : fs f = some text) :
    Rel (readFile fs Reader.new f).1 (some (f, text)) := by
  obtain ⟨ps, hi⟩ := inv_fold (getlines text)
  have : (readFile fs Reader.new f).1
      = ⟨((getlines text).foldl readLine ⟨[], [], true⟩).keys,
         ((getlines text).foldl readLine ⟨[], [], true⟩).vals, true, f⟩ := by
    simp [readFile, Reader.new, hfs]
  rw [this]; exact .read (getlines_isLines text) hi

theorem rel_answer {α : Type} (conv : Str → Option α) {r : Reader} {st : St} (h : Rel r st)
    (key : Str) :
    Answer conv st key (lookup conv r key) := by
  unfold lookup
  rcases rel_getString h key with ⟨hn, hg⟩ | ⟨f, text, lines, hst, hl, hs, hg⟩ |
    ⟨f, text, lines, v, hst, hl, hgv, hg⟩
  · rw [hg]; exact .notRead hn
  · rw [hg]; exact .missing hst hl hs
  · rw [hg]
    cases hc : conv v with
    | none => simp only [hc]; exact .bad hst hl hgv hc
    | some a => simp only [hc]; exact .found hst hl hgv hc

theorem getBool_eq (r : Reader) (key : Str) : getBool r key = lookup boolWord r key := by
  have ht : ∀ v : Str, areStringsEqual v "true".toList = true ↔ v.map upper = "TRUE".toList :=
    fun v => by rw [areStringsEqual_iff]; rfl
  have hf : ∀ v : Str, areStringsEqual v "false".toList = true ↔ v.map upper = "FALSE".toList :=
    fun v => by rw [areStringsEqual_iff]; rfl
  unfold getBool lookup boolWord
  cases getString r key with
  | error e => rfl
  | ok v =>
    by_cases h1 : v.map upper = "TRUE".toList
    · simp only [(ht v).2 h1, if_pos h1, if_true]
    · have e1 : ¬ areStringsEqual v "true".toList = true := by rw [ht]; exact h1
      by_cases h2 : v.map upper = "FALSE".toList
      · simp only [(hf v).2 h2, if_neg e1, if_neg h1, if_pos h2, if_true]
      · have e2 : ¬ areStringsEqual v "false".toList = true := by rw [hf]; exact h2
        simp only [if_neg e1, if_neg e2, if_neg h1, if_neg h2]

theorem step_refines {δ : Type} (stod : Str → Option δ) (fs : Str → Option Str) {r : Reader}
    {st : St} (h : Rel r st) (op : Op) :
    ∃ st', SpecStep stod fs st op (step stod fs r op).2 st' ∧ Rel (step stod fs r op).1 st' := by
  cases op with
  | readFile f =>
    cases h with
    | new =>
      cases hfs : fs f with
      | none =>
        refine ⟨none, ?_, ?_⟩
        · have : (step stod fs Reader.new (.readFile f)).2 = .thrown .openFileError := by
            simp [step, readFile, Reader.new, hfs]
          rw [this]; exact .readMissing hfs
        · have : (step stod fs Reader.new (.readFile f)).1 = Reader.new := by
            simp [step, readFile, Reader.new, hfs]
          rw [this]; exact .new
      | some text =>
        obtain ⟨ps, hi⟩ := inv_fold (getlines text)
        have hl := getlines_isLines text
        refine ⟨some (f, text), ?_, ?_⟩
        · by_cases hw : WellFormed (getlines text)
          · have : (step stod fs Reader.new (.readFile f)).2 = .done := by
              simp [step, ((readFile_accepts_iff fs f text _ hfs hl).1).2 hw]
            rw [this]; exact .readOk hfs hl hw
          · have : (step stod fs Reader.new (.readFile f)).2 = .thrown .parseFileError := by
              simp [step, ((readFile_accepts_iff fs f text _ hfs hl).2).2 hw]
            rw [this]; exact .readBad hfs hl hw
        · have : (step stod fs Reader.new (.readFile f)).1
              = ⟨((getlines text).foldl readLine ⟨[], [], true⟩).keys,
                 ((getlines text).foldl readLine ⟨[], [], true⟩).vals, true, f⟩ := by
            simp [step, readFile, Reader.new, hfs]
          rw [this]; exact .read hl hi
    | read hl hi =>
      rename_i f' text lines ps s
      refine ⟨some (f', text), ?_, ?_⟩
      · have : (step stod fs ⟨s.keys, s.vals, true, f'⟩ (.readFile f)).2
            = .thrown .alreadyReadAFile := by simp [step, readFile]
        rw [this]; exact .readAgain (by simp)
      · have : (step stod fs ⟨s.keys, s.vals, true, f'⟩ (.readFile f)).1
            = ⟨s.keys, s.vals, true, f'⟩ := by simp [step, readFile]
        rw [this]; exact .read hl hi
  | getString k =>
    refine ⟨st, ?_, h⟩
    have ha := rel_answer some h k
    have e : (step stod fs r (.getString k)).2 = wrap .str (getString r k) := by
      simp only [step]; cases getString r k <;> rfl
    rw [e]
    refine .getString ?_
    have e2 : lookup some r k = getString r k := by
      unfold lookup; cases getString r k <;> rfl
    rw [← e2]; exact ha
  | getInt k =>
    refine ⟨st, ?_, h⟩
    have e : (step stod fs r (.getInt k)).2 = wrap .int (getInt r k) := by
      simp only [step]; cases getInt r k <;> rfl
    have e2 : lookup stoi r k = getInt r k := by
      unfold lookup getInt
      cases getString r k with
      | error e => rfl
      | ok v => simp only; cases stoi v <;> rfl
    rw [e, ← e2]
    exact .getInt stoi_iff (rel_answer stoi h k)
  | getDouble k =>
    refine ⟨st, ?_, h⟩
    have e : (step stod fs r (.getDouble k)).2 = wrap .dbl (getDouble stod r k) := by
      simp only [step]; cases getDouble stod r k <;> rfl
    have e2 : lookup stod r k = getDouble stod r k := by
      unfold lookup getDouble; cases getString r k <;> rfl
    rw [e, ← e2]
    exact .getDouble (rel_answer stod h k)
  | getBool k =>
    refine ⟨st, ?_, h⟩
    have e : (step stod fs r (.getBool k)).2 = wrap .bool (getBool r k) := by
      simp only [step]; cases getBool r k <;> rfl
    rw [e, getBool_eq]
    exact .getBool (rel_answer boolWord h k)
  | print =>
    refine ⟨st, ?_, h⟩
    cases h with
    | new => exact .printNone
    | read hl hi =>
      rename_i f text lines ps s
      have : (step stod fs ⟨s.keys, s.vals, true, f⟩ .print).2 = .printed f ps := by
        simp only [step, printPairs, hi.keys, hi.vals]
        have : (ps.map Prod.fst).zip (ps.map Prod.snd) = ps := by
          clear hi
          induction ps with
          | nil => rfl
          | cons a ps ih => simp [ih]
        rw [this]
        simp
      rw [this]
      exact .print hl hi.first hi.distinct
  | reset => exact ⟨none, .reset, .new⟩

/-- C05: every history of calls on a new reader, with any files, behaves like the abstract machine
whose state is just the file read: lookups before a read fail, a second read fails and changes
nothing, lookups answer from the lines of the one file read, reset starts over. -/
theorem reader_refines {δ : Type} (stod : Str → Option δ) (fs : Str → Option Str) (ops : List Op) :
    SpecRun stod fs none ops (run stod fs Reader.new ops) := by
  suffices h : ∀ ops r st, Rel r st → SpecRun stod fs st ops (run stod fs r ops) from
    h ops _ _ .new
  intro ops
  induction ops with
  | nil => intro r st _; exact .nil
  | cons op ops ih =>
    intro r st hr
    obtain ⟨st', hs, hr'⟩ := step_refines stod fs hr op
    exact .cons hs (ih _ st' hr')

/-- The abstract machine is deterministic in results: `SpecRun` pins down the whole history (up to
the listing order of `print`). -/
theorem answer_unique {α : Type} (conv : Str → Option α) (st : St) (key : Str) (x y : Except Exn α)
    (hx : Answer conv st key x) (hy : Answer conv st key y) : x = y := by
  have glu : ∀ {text l1 l2}, IsLines text l1 → IsLines text l2 → l1 = l2 := fun h1 h2 =>
    (getlines_unique h1).symm.trans (getlines_unique h2)
  have gives_mem : ∀ {lines key v}, Gives lines key v → ¬ Silent lines key := by
    rintro lines key v ⟨pre, l, post, k, rfl, hp, hs, _⟩ hsil
    exact hsil l (by simp) k v hp hs
  have gives_unique : ∀ {lines : List Str} {key v v' : Str}, Gives lines key v → Gives lines key v' → v = v' := by
    rintro lines key v v' ⟨pre, l, post, k, rfl, hp, hs, hpre⟩ ⟨pre', l', post', k', he, hp', hs', hpre'⟩
    rcases List.append_eq_append_iff.1 he with ⟨a, h1, h2⟩ | ⟨a, h1, h2⟩
    · cases a with
      | nil =>
        simp at h2
        obtain ⟨rfl, _⟩ := h2
        exact (pair_unique hp hp').2
      | cons b a =>
        simp at h2
        obtain ⟨rfl, _⟩ := h2
        exact absurd hs (hpre' l (by simp [h1]) k v hp)
    · cases a with
      | nil =>
        simp at h2
        obtain ⟨rfl, _⟩ := h2
        exact (pair_unique hp hp').2
      | cons b a =>
        simp at h2
        obtain ⟨rfl, _⟩ := h2
        exact absurd hs' (hpre l' (by simp [h1]) k' v' hp')
  cases hx with
  | notRead h1 =>
    cases hy with
    | notRead => rfl
    | missing h2 => rw [h1] at h2; simp at h2
    | found h2 => rw [h1] at h2; simp at h2
    | bad h2 => rw [h1] at h2; simp at h2
  | missing h1 l1 s1 =>
    cases hy with
    | notRead h2 => rw [h1] at h2; simp at h2
    | missing => rfl
    | found h2 l2 g2 =>
      rw [h1] at h2; simp at h2; obtain ⟨_, rfl⟩ := h2
      rw [glu l1 l2] at s1; exact absurd s1 (gives_mem g2)
    | bad h2 l2 g2 =>
      rw [h1] at h2; simp at h2; obtain ⟨_, rfl⟩ := h2
      rw [glu l1 l2] at s1; exact absurd s1 (gives_mem g2)
  | found h1 l1 g1 c1 =>
    cases hy with
    | notRead h2 => rw [h1] at h2; simp at h2
    | missing h2 l2 s2 =>
      rw [h1] at h2; simp at h2; obtain ⟨_, rfl⟩ := h2
      rw [glu l1 l2] at g1; exact absurd s2 (gives_mem g1)
    | found h2 l2 g2 c2 =>
      rw [h1] at h2; simp at h2; obtain ⟨_, rfl⟩ := h2
      rw [glu l1 l2] at g1
      rw [gives_unique g1 g2, c2] at c1
      rw [Option.some.inj c1]
    | bad h2 l2 g2 c2 =>
      rw [h1] at h2; simp at h2; obtain ⟨_, rfl⟩ := h2
      rw [glu l1 l2] at g1
      rw [gives_unique g1 g2, c2] at c1; simp at c1
  | bad h1 l1 g1 c1 =>
    cases hy with
    | notRead h2 => rw [h1] at h2; simp at h2
    | missing h2 l2 s2 =>
      rw [h1] at h2; simp at h2; obtain ⟨_, rfl⟩ := h2
      rw [glu l1 l2] at g1; exact absurd s2 (gives_mem g1)
    | found h2 l2 g2 c2 =>
      rw [h1] at h2; simp at h2; obtain ⟨_, rfl⟩ := h2
      rw [glu l1 l2] at g1
      rw [gives_unique g1 g2, c2] at c1; simp at c1
    | bad => rfl

/-- A concrete history: lookup before reading, read, lookups, second read, reset, lookup. -/
example : run (fun _ : Str => (none : Option Unit)) (fun _ => some "nGroups 12x\nOut tRuE".toList)
    Reader.new [.getString "out".toList, .readFile "d".toList, .getInt "ngroups".toList,
      .getBool "OUT".toList, .getString "zz".toList, .readFile "e".toList, .reset,
      .getBool "out".toList]
    = [.thrown .fileNotRead, .done, .int 12, .bool true, .thrown .keyNotFound,
       .thrown .alreadyReadAFile, .done, .thrown .fileNotRead] := by decide +kernel

/-! ## C03: round trip -/

/-- `lines` is a rendering of the pairs `kvs`: one pair per line, in order, with blank or comment
lines in between. -/
inductive Renders : List Str → List (Str × Str) → Prop
  | nil : Renders [] []
  | blank {l lines kvs} : BlankLine l → Renders lines kvs → Renders (l :: lines) kvs
  | pair {l k v lines kvs} : PairLine l k v → Renders lines kvs → Renders (l :: lines) ((k, v) :: kvs)

theorem renders_pair {lines kvs} (h : Renders lines kvs) :
    ∀ k v, (∃ l ∈ lines, PairLine l k v) ↔ (k, v) ∈ kvs := by
  induction h with
  | nil => simp
  | blank hb _ ih =>
    intro k v
    simp only [List.mem_cons, exists_eq_or_imp, ← ih k v]
    exact or_iff_right (blank_not_pair hb)
  | pair hp _ ih =>
    intro k v
    simp only [List.mem_cons, exists_eq_or_imp, ← ih k v]
    refine or_congr_left ⟨fun h => ?_, fun h => ?_⟩
    · obtain ⟨rfl, rfl⟩ := pair_unique h hp; rfl
    · obtain ⟨rfl, rfl⟩ := Prod.mk.inj h; exact hp

theorem renders_wf {lines kvs} (h : Renders lines kvs)
    (hd : kvs.Pairwise fun a b => ¬ SameKey a.1 b.1) : WellFormed lines := by
  induction h with
  | nil => simp [WellFormed]
  | blank hb _ ih =>
    obtain ⟨h1, h2⟩ := ih hd
    refine ⟨?_, List.Pairwise.cons ?_ h2⟩
    · intro x hx
      rcases List.mem_cons.1 hx with rfl | hx
      · exact Or.inl hb
      · exact h1 x hx
    · intro l' _ k v k' v' hp; exact absurd hp (blank_not_pair hb)
  | pair hp hr ih =>
    obtain ⟨hd1, hd2⟩ := List.pairwise_cons.1 hd
    obtain ⟨h1, h2⟩ := ih hd2
    refine ⟨?_, List.Pairwise.cons ?_ h2⟩
    · intro x hx
      rcases List.mem_cons.1 hx with rfl | hx
      · exact Or.inr ⟨_, _, hp⟩
      · exact h1 x hx
    · intro l' hl' k1 v1 k2 v2 hp1 hp2
      obtain ⟨rfl, rfl⟩ := pair_unique hp hp1
      exact hd1 (k2, v2) ((renders_pair hr k2 v2).1 ⟨l', hl', hp2⟩)

theorem pairwise_ne {kvs : List (Str × Str)} (hd : kvs.Pairwise fun a b => ¬ SameKey a.1 b.1)
    {a b : Str × Str} (ha : a ∈ kvs) (hb : b ∈ kvs) (hne : a ≠ b) : ¬ SameKey a.1 b.1 := by
  induction hd with
  | nil => simp at ha
  | cons h _ ih =>
    rcases List.mem_cons.1 ha with h1 | h1 <;> rcases List.mem_cons.1 hb with h2 | h2
    · exact absurd (h1.trans h2.symm) hne
    · rw [h1]; exact h _ h2
    · rw [h2]; exact fun hs => h _ h1 hs.symm
    · exact ih h1 h2

/-- C03: reading a rendered list of pairs with distinct keys succeeds; each key (in any case) looks
up its value and every other key is reported missing. -/
theorem readFile_roundtrip (fs : Str → Option Str) (f text : Str) (lines : List Str)
    (kvs : List (Str × Str)) (hd : kvs.Pairwise fun a b => ¬ SameKey a.1 b.1)
    (hr : Renders lines kvs) (hl : IsLines text lines) (hfs : fs f = some text) :
    (readFile fs Reader.new f).2 = none ∧
    (∀ k v, (k, v) ∈ kvs → ∀ key, SameKey k key →
      getString (readFile fs Reader.new f).1 key = .ok v) ∧
    ∀ key, (∀ k v, (k, v) ∈ kvs → ¬ SameKey k key) →
      getString (readFile fs Reader.new f).1 key = .error .keyNotFound := by
  have hwf := renders_wf hr hd
  refine ⟨((readFile_accepts_iff fs f text lines hfs hl).1).2 hwf, ?_, ?_⟩
  all_goals have hrel' := rel_readFile hfs
  · intro k v hkv key hk
    rcases rel_getString hrel' key with ⟨h, _⟩ | ⟨f', text', lines', h, hl', hsil, _⟩ |
      ⟨f', text', lines', v', h, hl', hg, hok⟩
    · simp at h
    · obtain ⟨rfl, rfl⟩ := Prod.mk.inj (Option.some.inj h)
      obtain rfl := (getlines_unique hl).symm.trans (getlines_unique hl')
      obtain ⟨l, hll, hp⟩ := (renders_pair hr k v).2 hkv
      exact absurd hk (hsil l hll k v hp)
    · obtain ⟨rfl, rfl⟩ := Prod.mk.inj (Option.some.inj h)
      obtain rfl := (getlines_unique hl).symm.trans (getlines_unique hl')
      rw [hok]
      obtain ⟨pre, l, post, k', he, hp, hsame, _⟩ := hg
      have hkv' := (renders_pair hr k' v').1 ⟨l, by simp [he], hp⟩
      -- two pairs with keys equal up to case are the same pair
      have : (k', v') = (k, v) := by
        by_contra hne
        have hsk : SameKey k' k := hsame.trans hk.symm
        exact pairwise_ne hd hkv' hkv hne hsk
      rw [(Prod.mk.inj this).2]
  · intro key hno
    rcases rel_getString hrel' key with ⟨h, _⟩ | ⟨f', text', lines', h, hl', hsil, hok⟩ |
      ⟨f', text', lines', v', h, hl', hg, _⟩
    · simp at h
    · exact hok
    · obtain ⟨rfl, rfl⟩ := Prod.mk.inj (Option.some.inj h)
      obtain rfl := (getlines_unique hl).symm.trans (getlines_unique hl')
      obtain ⟨pre, l, post, k', he, hp, hsame, _⟩ := hg
      exact absurd hsame (hno k' v' ((renders_pair hr k' v').1 ⟨l, by simp [he], hp⟩))

/-- The hypotheses of the round trip are met by a deck with a comment line, blanks and trailing
comments. -/
example : ∃ text lines kvs, (kvs.Pairwise fun a b : Str × Str => ¬ SameKey a.1 b.1) ∧
    Renders lines kvs ∧ IsLines text lines ∧ kvs.length = 2 := by
  refine ⟨"# deck\nerrMax 1e-6 # tol\n\t x\t-y".toList,
    ["# deck".toList, "errMax 1e-6 # tol".toList, "\t x\t-y".toList],
    [("errMax".toList, "1e-6".toList), ("x".toList, "-y".toList)], ?_, ?_, ?_, rfl⟩
  · unfold SameKey; decide
  · refine .blank ⟨[], "# deck".toList, by simp [Blanks], Or.inr ⟨_, rfl⟩, rfl⟩
      (.pair ⟨[], [' '], [' '], "# tol".toList, ?_, ?_, ?_, ?_, Or.inr ⟨_, rfl⟩, ?_, ?_, rfl⟩
        (.pair ⟨"\t ".toList, ['\t'], [], [], ?_, ?_, ?_, ?_, Or.inl rfl, ?_, ?_, rfl⟩ .nil))
    all_goals first | (unfold Blanks; decide) | (unfold Token TokenChar; decide) | simp
  · refine ⟨by decide, Or.inr ⟨["# deck".toList, "errMax 1e-6 # tol".toList], "\t x\t-y".toList,
      by decide, rfl, by decide⟩⟩

/-! ## C06: violated -/

/-- C06 is false of the code: after a reported parse error the reader answers lookups from the
lines that did parse. -/
theorem failed_parse_usable : ∃ (fs : Str → Option Str) (f : Str),
    (readFile fs Reader.new f).2 = some .parseFileError ∧
    getString (readFile fs Reader.new f).1 "sigmaT1".toList = .ok "10.0".toList := by
  refine ⟨fun _ => some "sigmaT1 10.0\nsigmaT2 = 10.0\n".toList, [], ?_⟩
  decide +kernel

/-- C06, what does hold: after a failed parse a lookup only answers with the value of the first
well-formed line for that key, and reports a key no well-formed line mentions. Missing: it should
answer nothing at all. -/
theorem failed_parse_lookup_partial (fs : Str → Option Str) (f text : Str) (lines : List Str)
    (hfs : fs f = some text) (hl : IsLines text lines) (key : Str) :
    (∀ v, getString (readFile fs Reader.new f).1 key = .ok v → Gives lines key v) ∧
    (Silent lines key → getString (readFile fs Reader.new f).1 key = .error .keyNotFound) ∧
    -- and nothing can be read into it until `reset`
    ∀ f', (readFile fs (readFile fs Reader.new f).1 f').2 = some .alreadyReadAFile := by
  have hrel' := rel_readFile hfs
  refine ⟨?_, ?_, ?_⟩
  · intro v hv
    rcases rel_getString hrel' key with ⟨h, _⟩ | ⟨f', text', lines', h, hl', _, hok⟩ |
      ⟨f', text', lines', v', h, hl', hg, hok⟩
    · simp at h
    · rw [hv] at hok; simp at hok
    · obtain ⟨rfl, rfl⟩ := Prod.mk.inj (Option.some.inj h)
      obtain rfl := (getlines_unique hl).symm.trans (getlines_unique hl')
      rw [hv] at hok
      rw [Except.ok.inj hok]; exact hg
  · intro hsil
    rcases rel_getString hrel' key with ⟨h, _⟩ | ⟨f', text', lines', h, hl', _, hok⟩ |
      ⟨f', text', lines', v', h, hl', ⟨pre, l, post, k, he, hp, hsame, _⟩, _⟩
    · simp at h
    · exact hok
    · obtain ⟨rfl, rfl⟩ := Prod.mk.inj (Option.some.inj h)
      obtain rfl := (getlines_unique hl).symm.trans (getlines_unique hl')
      exact absurd hsame (hsil l (by simp [he]) k v' hp)
  · intro f'
    have hrd : (readFile fs Reader.new f).1.isFileRead = true := by
      simp [readFile, Reader.new, hfs]
    generalize (readFile fs Reader.new f).1 = r at hrd
    simp [readFile, hrd]

/-! ## C07: option words -/

/-- The documented words (examples/input.deck.example:24-33 and src/Main.cc). -/
def sweepWords : List (String × SweepType) :=
  [("OriginalTycho1", .originalTycho1), ("OriginalTycho2", .originalTycho2),
   ("TraverseGraph", .traverseGraph), ("PBJ", .pbj), ("PBJOuter", .pbjOuter), ("Schur", .schur),
   ("SchurOuter", .schurOuter), ("PBJSI", .pbjsi), ("SchurKrylov", .schurKrylov)]
def mpiWords : List (String × MPIType) :=
  [("TychoTwoSided", .tychoTwoSided), ("CapsaicinTwoSided", .capsaicinTwoSided)]
/-- examples/input.deck.example:36-44. -/
def gaussWords : List (String × GaussElimWord) :=
  [("Original", .original), ("NoPivot", .noPivot), ("CramerGlu", .cramerGlu),
   ("CramerIntel", .cramerIntel)]

/-- C07, sweep type: exactly the documented words select, each its own variant. -/
theorem selectSweep_iff (w : Str) (t : SweepType) :
    selectSweep w = some t ↔ ∃ p ∈ sweepWords, w = p.1.toList ∧ t = p.2 := by
  unfold selectSweep
  constructor
  · intro h
    repeat' split at h
    all_goals first
      | (simp only [Option.some.injEq] at h; subst h; rename_i hw; rw [hw]; decide)
      | simp at h
  · rintro ⟨p, hp, rfl, rfl⟩
    revert p
    decide

/-- C07, MPI type. -/
theorem selectMPI_iff (w : Str) (t : MPIType) :
    selectMPI w = some t ↔ ∃ p ∈ mpiWords, w = p.1.toList ∧ t = p.2 := by
  unfold selectMPI
  constructor
  · intro h
    repeat' split at h
    all_goals first
      | (simp only [Option.some.injEq] at h; subst h; rename_i hw; rw [hw]; decide)
      | simp at h
  · rintro ⟨p, hp, rfl, rfl⟩
    revert p
    decide

/-- C07, within-cell solver: the documented words select their variants. Missing: every other word
should stop the program. -/
theorem selectGauss_partial (old : GaussElimWord) (p : String × GaussElimWord)
    (hp : p ∈ gaussWords) : selectGauss old p.1.toList = some p.2 := by
  revert p; cases old <;> decide

/-- C07 is false for the within-cell solver: every undocumented word is accepted and keeps the
previous value. -/
theorem selectGauss_unknown_accepted (old : GaussElimWord) (w : Str)
    (h : ∀ p ∈ gaussWords, w ≠ p.1.toList) : selectGauss old w = some old := by
  have h1 := h ("Original", .original) (by decide)
  have h2 := h ("NoPivot", .noPivot) (by decide)
  have h3 := h ("CramerGlu", .cramerGlu) (by decide)
  have h4 := h ("CramerIntel", .cramerIntel) (by decide)
  simp only at h1 h2 h3 h4
  unfold selectGauss
  rw [if_neg h1, if_neg h2, if_neg h3, if_neg h4]

/-- A complete deck, with the solver word left open. -/
def sampleDeck (word : String) : Str :=
  ("snOrder 8\niterMax 100\nerrMax 1e-6\nmaxCellsPerStep 100\nintraAngleP 3\ninterAngleP 1\n"
    ++ "nGroups 2\nsigmaT1 10.0\nsigmaS1 5.0\nsigmaT2 10.0\nsigmaS2 5.0\nOutputFile false\n"
    ++ "OutputFilename out.psi\nSourceIteration true\nDD_IterMax 100\nDD_ErrMax 1e-5\n"
    ++ "MPIType TychoTwoSided\nSweepType TraverseGraph\nGaussElim " ++ word ++ "\n").toList

/-- End to end: the misspelt word `Nopivot` is accepted and silently selects `Original`. -/
theorem readInput_unknown_solver_accepted :
    ((readInput (fun s => some s) (fun _ => some (sampleDeck "Nopivot")) .original []).toOption.map
      (·.gaussElim)) = some .original := by decide +kernel

/-- The documented word is honoured on the same deck. -/
example :
    ((readInput (fun s => some s) (fun _ => some (sampleDeck "NoPivot")) .original []).toOption.map
      fun s => (s.gaussElim, s.snOrder, s.sweepType)) = some (.noPivot, 8, .traverseGraph) := by
  decide +kernel

/-- Settings, when `readInput` succeeds, come from documented words for sweep and MPI type. -/
theorem readInput_words {δ : Type} (stod : Str → Option δ) (fs : Str → Option Str)
    (old : GaussElimWord) (f : Str) (s : Settings δ) (h : readInput stod fs old f = .ok s) :
    (∃ w, getString (readFile fs Reader.new f).1 "SweepType".toList = .ok w ∧
      ∃ p ∈ sweepWords, w = p.1.toList ∧ s.sweepType = p.2) ∧
    (∃ w, getString (readFile fs Reader.new f).1 "MPIType".toList = .ok w ∧
      ∃ p ∈ mpiWords, w = p.1.toList ∧ s.mpiType = p.2) ∧
    (∃ w, getString (readFile fs Reader.new f).1 "GaussElim".toList = .ok w ∧
      selectGauss old w = some s.gaussElim) := by
  have bind_ok : ∀ {α β : Type} (x : Except Stop α) (k : α → Except Stop β) (b : β),
      (x >>= k) = .ok b → ∃ a, x = .ok a ∧ k a = .ok b := by
    intro α β x k b hb
    cases x with
    | error e => simp [bind, Except.bind] at hb
    | ok a => exact ⟨a, rfl, hb⟩
  have lift_ok : ∀ {α : Type} (x : Except Exn α) (a : α), lift x = .ok a → x = .ok a := by
    intro α x a hx
    cases x with
    | error e => simp [lift] at hx
    | ok b => simp only [lift, Except.ok.injEq] at hx; rw [hx]
  have insist_ok : ∀ {α : Type} (x : Option α) (a : α), insist x = .ok a → x = some a := by
    intro α x a hx
    cases x with
    | none => simp [insist] at hx
    | some b => simp only [insist, Except.ok.injEq] at hx; rw [hx]
  unfold readInput at h
  generalize readFile fs Reader.new f = rf at h ⊢
  obtain ⟨kvr, e⟩ := rf
  cases e with
  | some e => simp at h
  | none =>
    simp only at h
    iterate 16 (obtain ⟨_, _, h⟩ := bind_ok _ _ _ h)
    obtain ⟨mw, hmw, h⟩ := bind_ok _ _ _ h
    obtain ⟨mt, hmt, h⟩ := bind_ok _ _ _ h
    obtain ⟨sw, hsw, h⟩ := bind_ok _ _ _ h
    obtain ⟨st, hst, h⟩ := bind_ok _ _ _ h
    obtain ⟨gw, hgw, h⟩ := bind_ok _ _ _ h
    obtain ⟨gt, hgt, h⟩ := bind_ok _ _ _ h
    simp only [Except.ok.injEq] at h
    subst h
    exact ⟨⟨sw, lift_ok _ _ hsw, (selectSweep_iff _ _).1 (insist_ok _ _ hst)⟩,
      ⟨mw, lift_ok _ _ hmw, (selectMPI_iff _ _).1 (insist_ok _ _ hmt)⟩,
      ⟨gw, lift_ok _ _ hgw, insist_ok _ _ hgt⟩⟩

/-! ## C64: the settings are those of the deck -/

/-- C64: when `readInput` returns, every setting is the value the reader gives for its own key, and
integers are reduced modulo 2^64. -/
theorem readInput_settings {δ : Type} (stod : Str → Option δ) (fs : Str → Option Str)
    (old : GaussElimWord) (f : Str) (s : Settings δ) (h : readInput stod fs old f = .ok s) :
    let kvr := (readFile fs Reader.new f).1
    (∀ p ∈ [("snOrder", s.snOrder), ("iterMax", s.iterMax), ("maxCellsPerStep", s.maxCellsPerStep),
        ("intraAngleP", s.intraAngleP), ("interAngleP", s.interAngleP), ("nGroups", s.nGroups),
        ("DD_IterMax", s.ddIterMax)],
      ∃ x, getInt kvr p.1.toList = .ok x ∧ p.2 < 2 ^ 64 ∧ (p.2 : Int) ≡ x [ZMOD 2 ^ 64]) ∧
    (∀ p ∈ [("errMax", s.errMax), ("sigmaT1", s.sigmaT1), ("sigmaS1", s.sigmaS1),
        ("sigmaT2", s.sigmaT2), ("sigmaS2", s.sigmaS2), ("DD_ErrMax", s.ddErrMax)],
      getDouble stod kvr p.1.toList = .ok p.2) ∧
    (∀ p ∈ [("OutputFile", s.outputFile), ("SourceIteration", s.sourceIteration)],
      getBool kvr p.1.toList = .ok p.2) ∧
    getString kvr "OutputFilename".toList = .ok s.outputFilename := by
  have bind_ok : ∀ {α β : Type} (x : Except Stop α) (k : α → Except Stop β) (b : β),
      (x >>= k) = .ok b → ∃ a, x = .ok a ∧ k a = .ok b := by
    intro α β x k b hb
    cases x with
    | error e => simp [bind, Except.bind] at hb
    | ok a => exact ⟨a, rfl, hb⟩
  have lift_ok : ∀ {α : Type} (x : Except Exn α) (a : α), lift x = .ok a → x = .ok a := by
    intro α x a hx
    cases x with
    | error e => simp [lift] at hx
    | ok b => simp only [lift, Except.ok.injEq] at hx; rw [hx]
  have huint : ∀ x : Int, toUINT x < 2 ^ 64 ∧ ((toUINT x : Nat) : Int) ≡ x [ZMOD 2 ^ 64] := by
    intro x
    unfold toUINT
    constructor
    · omega
    · show _ % _ = _ % _
      omega
  unfold readInput at h
  generalize readFile fs Reader.new f = rf at h ⊢
  obtain ⟨kvr, e⟩ := rf
  cases e with
  | some e => simp at h
  | none =>
    simp only at h
    obtain ⟨a1, h1, h⟩ := bind_ok _ _ _ h
    obtain ⟨a2, h2, h⟩ := bind_ok _ _ _ h
    obtain ⟨a3, h3, h⟩ := bind_ok _ _ _ h
    obtain ⟨a4, h4, h⟩ := bind_ok _ _ _ h
    obtain ⟨a5, h5, h⟩ := bind_ok _ _ _ h
    obtain ⟨a6, h6, h⟩ := bind_ok _ _ _ h
    obtain ⟨a7, h7, h⟩ := bind_ok _ _ _ h
    obtain ⟨a8, h8, h⟩ := bind_ok _ _ _ h
    obtain ⟨a9, h9, h⟩ := bind_ok _ _ _ h
    obtain ⟨a10, h10, h⟩ := bind_ok _ _ _ h
    obtain ⟨a11, h11, h⟩ := bind_ok _ _ _ h
    obtain ⟨a12, h12, h⟩ := bind_ok _ _ _ h
    obtain ⟨a13, h13, h⟩ := bind_ok _ _ _ h
    obtain ⟨a14, h14, h⟩ := bind_ok _ _ _ h
    obtain ⟨a15, h15, h⟩ := bind_ok _ _ _ h
    obtain ⟨a16, h16, h⟩ := bind_ok _ _ _ h
    iterate 6 (obtain ⟨_, _, h⟩ := bind_ok _ _ _ h)
    simp only [Except.ok.injEq] at h
    subst h
    simp only [List.forall_mem_cons, List.not_mem_nil, false_implies, implies_true, and_true]
    exact ⟨⟨⟨_, lift_ok _ _ h1, huint _⟩, ⟨_, lift_ok _ _ h2, huint _⟩, ⟨_, lift_ok _ _ h4, huint _⟩,
      ⟨_, lift_ok _ _ h5, huint _⟩, ⟨_, lift_ok _ _ h6, huint _⟩, ⟨_, lift_ok _ _ h7, huint _⟩,
      ⟨_, lift_ok _ _ h14, huint _⟩⟩, ⟨lift_ok _ _ h3, lift_ok _ _ h8, lift_ok _ _ h9, lift_ok _ _ h10,
      lift_ok _ _ h11, lift_ok _ _ h15⟩, ⟨lift_ok _ _ h12, lift_ok _ _ h16⟩, lift_ok _ _ h13⟩

/-- C64: an integer setting written as a plain decimal number below 2^31 is used as written. -/
theorem readInput_int_partial {δ : Type} (stod : Str → Option δ) (fs : Str → Option Str)
    (old : GaussElimWord) (f : Str) (s : Settings δ) (h : readInput stod fs old f = .ok s) (p : String × Nat)
    (hp : p ∈ [("snOrder", s.snOrder), ("iterMax", s.iterMax), ("maxCellsPerStep", s.maxCellsPerStep),
      ("intraAngleP", s.intraAngleP), ("interAngleP", s.interAngleP), ("nGroups", s.nGroups),
      ("DD_IterMax", s.ddIterMax)]) (v : Str)
    (hv : getString (readFile fs Reader.new f).1 p.1.toList = .ok v) (hd : ∀ c ∈ v, Digit c) :
    p.2 = number v ∧ number v < 2 ^ 31 := by
  obtain ⟨x, hx, hlt, hmod⟩ := (readInput_settings stod fs old f s h).1 p hp
  unfold getInt at hx
  rw [hv] at hx
  simp only at hx
  split at hx <;> [skip; simp at hx]
  rename_i y hy
  injection hx with hx
  subst hx
  obtain ⟨sign, ds, rest, he, h0, h1, h2, h3, h4⟩ := (stoi_iff v y).1 hy
  have hs : sign = [] := by
    rcases h3 with ⟨h3 | h3, -⟩ | ⟨h3, -⟩
    · exact h3
    · subst h3; exact absurd (hd '+' (by rw [he]; simp)) (not_digit_sign (.inr rfl))
    · subst h3; exact absurd (hd '-' (by rw [he]; simp)) (not_digit_sign (.inl rfl))
  subst hs
  have hr : rest = [] := by
    cases rest with
    | nil => rfl
    | cons c cs => exact absurd (hd c (by rw [he]; simp)) (h2 c rfl)
  subst hr
  simp only [List.nil_append, List.append_nil] at he
  subst he
  rcases h3 with ⟨-, rfl⟩ | ⟨h3, -⟩
  · have h5 : number v < 2 ^ 31 := by exact_mod_cast h4.2
    refine ⟨?_, h5⟩
    have : ((p.2 : Int)) % 2 ^ 64 = (number v : Int) % 2 ^ 64 := hmod
    omega
  · simp at h3

/-- C64 is false in general: text after the digits is dropped and a negative number becomes huge. -/
theorem readInput_int_mangled :
    ((readInput (fun s => some s) (fun _ => some ("snOrder 8.9e3x\niterMax -1\n".toList ++
        (sampleDeck "NoPivot").drop 22)) .original []).toOption.map
      fun s => (s.snOrder, s.iterMax)) = some (8, 18446744073709551615) := by decide +kernel

end Verif.Input
