import Verif.Input.Model

/-!
# Specification of the input deck language and of the reader

Independent of the parsing functions: lines are described by how they are put together, and the
reader by a state that is just "which file was read".
-/
namespace Verif.Input.Spec

/-- Blank text: spaces and tabs. -/
def Blanks (w : Str) : Prop := ∀ c ∈ w, c = ' ' ∨ c = '\t'

/-- A character a token may contain: a letter, a digit or one of `+ - _ .`. -/
def TokenChar (c : Char) : Prop :=
  (97 ≤ c.toNat ∧ c.toNat ≤ 122) ∨ (65 ≤ c.toNat ∧ c.toNat ≤ 90) ∨
  (48 ≤ c.toNat ∧ c.toNat ≤ 57) ∨ c = '+' ∨ c = '-' ∨ c = '_' ∨ c = '.'

/-- A token: nonempty, of token characters. -/
def Token (t : Str) : Prop := t ≠ [] ∧ ∀ c ∈ t, TokenChar c

/-- Nothing, or a comment. -/
def Comment (s : Str) : Prop := s = [] ∨ ∃ t, s = '#' :: t

/-- A line without a pair. -/
def BlankLine (l : Str) : Prop := ∃ w c, Blanks w ∧ Comment c ∧ l = w ++ c

/-- A line with the pair `k`, `v`. -/
def PairLine (l k v : Str) : Prop :=
  ∃ w1 w2 w3 c, Blanks w1 ∧ Blanks w2 ∧ w2 ≠ [] ∧ Blanks w3 ∧ Comment c ∧ Token k ∧ Token v ∧
    l = w1 ++ k ++ w2 ++ v ++ w3 ++ c

/-- Upper case of an ASCII character. -/
def upper (c : Char) : Char :=
  if 'a' ≤ c ∧ c ≤ 'z' then Char.ofNat (c.toNat - ('a'.toNat - 'A'.toNat)) else c

/-- Keys are the same up to upper and lower case. -/
def SameKey (k k' : Str) : Prop := k.map upper = k'.map upper

/-- The first line that gives `key` a value gives it `v`. -/
def Gives (lines : List Str) (key v : Str) : Prop :=
  ∃ pre l post k, lines = pre ++ l :: post ∧ PairLine l k v ∧ SameKey k key ∧
    ∀ l' ∈ pre, ∀ k' v', PairLine l' k' v' → ¬ SameKey k' key

/-- No line gives `key` a value. -/
def Silent (lines : List Str) (key : Str) : Prop :=
  ∀ l ∈ lines, ∀ k v, PairLine l k v → ¬ SameKey k key

/-- Every line is well formed and no key occurs on two lines. -/
def WellFormed (lines : List Str) : Prop :=
  (∀ l ∈ lines, BlankLine l ∨ ∃ k v, PairLine l k v) ∧
  lines.Pairwise fun l l' => ∀ k v k' v', PairLine l k v → PairLine l' k' v' → ¬ SameKey k k'

/-- Lines of a text: `text` is the lines, each ended by a newline, except that the newline after a
nonempty last line may be missing. -/
def IsLines (text : Str) (lines : List Str) : Prop :=
  (∀ l ∈ lines, '\n' ∉ l) ∧
  (text = (lines.map (· ++ ['\n'])).flatten ∨
    ∃ init last, last ≠ [] ∧ lines = init ++ [last] ∧
      text = (init.map (· ++ ['\n'])).flatten ++ last)

/-- A decimal digit. -/
def Digit (c : Char) : Prop := '0' ≤ c ∧ c ≤ '9'

/-- The number a digit string denotes: the last digit counts one, the one before it ten, and so on. -/
def number : Str → Nat
  | [] => 0
  | c :: cs => (c.toNat - '0'.toNat) * 10 ^ cs.length + number cs

/-- The integer `x` a C++ conversion to `int` finds in `v`: an optional sign, at least one digit, as
many digits as there are, and then anything. The value must fit in 32 bits. -/
def IntOf (v : Str) (x : Int) : Prop :=
  ∃ sign ds rest, v = sign ++ ds ++ rest ∧ ds ≠ [] ∧ (∀ c ∈ ds, Digit c) ∧
    (∀ c, rest.head? = some c → ¬ Digit c) ∧
    ((sign = [] ∨ sign = ['+']) ∧ x = number ds ∨ sign = ['-'] ∧ x = - (number ds : Int)) ∧
    -2 ^ 31 ≤ x ∧ x < 2 ^ 31

/-- Abstract state: the file read (name and text), if any. -/
abbrev St := Option (Str × Str)

/-- What a lookup that converts with `conv` may answer. -/
inductive Answer {α : Type} (conv : Str → Option α) (st : St) (key : Str) : Except Exn α → Prop
  | notRead : st = none → Answer conv st key (.error .fileNotRead)
  | missing {f text lines} : st = some (f, text) → IsLines text lines → Silent lines key →
      Answer conv st key (.error .keyNotFound)
  | found {f text lines v a} : st = some (f, text) → IsLines text lines → Gives lines key v →
      conv v = some a → Answer conv st key (.ok a)
  | bad {f text lines v} : st = some (f, text) → IsLines text lines → Gives lines key v →
      conv v = none → Answer conv st key (.error .stringConversionError)

/-- Boolean words, any case. -/
def boolWord (v : Str) : Option Bool :=
  if v.map upper = "TRUE".toList then some true
  else if v.map upper = "FALSE".toList then some false
  else none

/-- Wrap a result as an observable. -/
def wrap {δ α : Type} (f : α → Out δ) : Except Exn α → Out δ
  | .ok a => f a
  | .error e => .thrown e

/-- One operation of the abstract machine: allowed result and next state. -/
inductive SpecStep {δ : Type} (stod : Str → Option δ) (fs : Str → Option Str) :
    St → Op → Out δ → St → Prop
  | readAgain {st f} : st ≠ none → SpecStep stod fs st (.readFile f) (.thrown .alreadyReadAFile) st
  | readMissing {f} : fs f = none → SpecStep stod fs none (.readFile f) (.thrown .openFileError) none
  | readOk {f text lines} : fs f = some text → IsLines text lines → WellFormed lines →
      SpecStep stod fs none (.readFile f) .done (some (f, text))
  | readBad {f text lines} : fs f = some text → IsLines text lines → ¬ WellFormed lines →
      SpecStep stod fs none (.readFile f) (.thrown .parseFileError) (some (f, text))
  | getString {st k r} : Answer some st k r → SpecStep stod fs st (.getString k) (wrap .str r) st
  | getInt {st k r} {conv : Str → Option Int} : (∀ v x, conv v = some x ↔ IntOf v x) →
      Answer conv st k r → SpecStep stod fs st (.getInt k) (wrap .int r) st
  | getDouble {st k r} : Answer stod st k r → SpecStep stod fs st (.getDouble k) (wrap .dbl r) st
  | getBool {st k r} : Answer boolWord st k r → SpecStep stod fs st (.getBool k) (wrap .bool r) st
  | printNone : SpecStep stod fs none .print (.thrown .fileNotRead) none
  | print {f text lines ps} : IsLines text lines →
      (∀ k v, (k, v) ∈ ps ↔ ∃ pre l post, lines = pre ++ l :: post ∧ PairLine l k v ∧
        ∀ l' ∈ pre, ∀ k' v', PairLine l' k' v' → ¬ SameKey k' k) →
      (ps.Pairwise fun a b => ¬ SameKey a.1 b.1) →
      SpecStep stod fs (some (f, text)) .print (.printed f ps) (some (f, text))
  | reset {st} : SpecStep stod fs st .reset .done none

/-- A history of the abstract machine. -/
inductive SpecRun {δ : Type} (stod : Str → Option δ) (fs : Str → Option Str) :
    St → List Op → List (Out δ) → Prop
  | nil {st} : SpecRun stod fs st [] []
  | cons {st st' op o ops os} : SpecStep stod fs st op o st' → SpecRun stod fs st' ops os →
      SpecRun stod fs st (op :: ops) (o :: os)

end Verif.Input.Spec
