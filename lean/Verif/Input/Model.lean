/-!
# Input deck reader (src/KeyValueReader.cc) and option dispatch (src/Main.cc)

Text is a list of characters. `toupper` is that of the C locale. Messages printed on errors are not
modelled (they have no effect on the state). `stod`/`stof` are a parameter.
-/
namespace Verif.Input

abbrev Str := List Char

/-! ## Helper functions -/

/-- `getRidOfComments` (src/KeyValueReader.cc:54-60). -/
def getRidOfComments (line : Str) : Str := line.takeWhile (· != '#')

/-- Membership in the string `" \t"` (src/KeyValueReader.cc:72). -/
def isWhitespace (c : Char) : Bool := [' ', '\t'].contains c

/-- `deleteWhitespace` (src/KeyValueReader.cc:69-81): the rest of the line and the number of
characters deleted. -/
def deleteWhitespace (line : Str) : Str × Nat :=
  (line.dropWhile isWhitespace, (line.takeWhile isWhitespace).length)

/-- `areStringsEqual` compares after `toupper` (src/KeyValueReader.cc:97). -/
def toupper (c : Char) : Char :=
  if 97 ≤ c.toNat ∧ c.toNat ≤ 122 then Char.ofNat (c.toNat - 32) else c

/-- `areStringsEqual` (src/KeyValueReader.cc:90-102). -/
def areStringsEqual (s1 s2 : Str) : Bool :=
  if s1.length ≠ s2.length then false
  else (s1.zip s2).all fun p => toupper p.1 == toupper p.2

/-- The string `allowableChar` (src/KeyValueReader.cc:114-117). -/
def allowableChar : Str :=
  "abcdefghijklmnopqrstuvwxyzABCDEFGHIJKLMNOPQRSTUVWXYZ0123456789+-_.".toList

/-- Membership test of `popToken` (src/KeyValueReader.cc:122). -/
def isAllowable (c : Char) : Bool := allowableChar.contains c

/-- `popToken` (src/KeyValueReader.cc:111-127): (token, rest of line). -/
def popToken (line : Str) : Str × Str := (line.takeWhile isAllowable, line.dropWhile isAllowable)

/-- `parseLine` (src/KeyValueReader.cc:143-196). `none` is the return value `false`;
`some ([], [])` a blank or comment line. -/
def parseLine (line : Str) : Option (Str × Str) :=
  let parsedLine := getRidOfComments line
  let parsedLine := (deleteWhitespace parsedLine).1
  if parsedLine.length = 0 then some ([], [])
  else
    let (key, parsedLine) := popToken parsedLine
    if key = [] then none
    else
      let (parsedLine, numWhitespace) := deleteWhitespace parsedLine
      if numWhitespace = 0 then none
      else
        let (value, parsedLine) := popToken parsedLine
        if value = [] then none
        else
          let parsedLine := (deleteWhitespace parsedLine).1
          if parsedLine.length ≠ 0 then none else some (key, value)

/-- `findKey` (src/KeyValueReader.cc:205-215); `none` is `KEY_NOT_FOUND`. The `int` result is
modelled without a bound (more than 2^31 keys are not considered). -/
def findKey (keyVector : List Str) (key : Str) : Option Nat :=
  keyVector.findIdx? fun k => areStringsEqual key k

/-! ## The class -/

/-- `KeyValueReader::Private` (src/KeyValueReader.cc:228-236). -/
structure Reader where
  keyVector : List Str
  valueVector : List Str
  isFileRead : Bool
  filename : Str
deriving DecidableEq

/-- `KeyValueReader::Exception` (src/KeyValueReader.hh:42-49). -/
inductive Exn
  | alreadyReadAFile | fileNotRead | openFileError | parseFileError | keyNotFound
  | stringConversionError
deriving DecidableEq

/-- `reset` and the constructor (src/KeyValueReader.cc:261-283). -/
def Reader.new : Reader := ⟨[], [], false, []⟩

/-- `std::getline` repeated to the end of the file. -/
def getlines : Str → List Str
  | [] => []
  | c :: cs =>
    if c = '\n' then [] :: getlines cs
    else match getlines cs with
      | [] => [[c]]
      | l :: ls => (c :: l) :: ls

/-- State of the reading loop: keys, values, `totalParseOk`. -/
structure Loop where
  keys : List Str
  vals : List Str
  ok : Bool
deriving DecidableEq

/-- One pass of the reading loop (src/KeyValueReader.cc:323-350). -/
def readLine (s : Loop) (line : Str) : Loop :=
  match parseLine line with
  | none => { s with ok := false }
  | some (key, value) =>
    if (findKey s.keys key).isSome then { s with ok := false }
    else if key ≠ [] then { s with keys := s.keys ++ [key], vals := s.vals ++ [value] }
    else s

/-- `readFile` (src/KeyValueReader.cc:292-359). `fs` gives the contents of the files that can be
opened. The result is the new state and the exception thrown, if any. -/
def readFile (fs : Str → Option Str) (r : Reader) (filename : Str) : Reader × Option Exn :=
  let oldFilename := r.filename
  let r1 := { r with filename := filename }
  if r1.isFileRead then ({ r1 with filename := oldFilename }, some .alreadyReadAFile)
  else match fs filename with
    | none => ({ r1 with filename := oldFilename }, some .openFileError)
    | some text =>
      let s := (getlines text).foldl readLine ⟨r1.keyVector, r1.valueVector, true⟩
      let r2 := { r1 with keyVector := s.keys, valueVector := s.vals, isFileRead := true }
      (r2, if s.ok then none else some .parseFileError)

/-- `getString` (src/KeyValueReader.cc:369-391). -/
def getString (r : Reader) (key : Str) : Except Exn Str :=
  if r.isFileRead = false then .error .fileNotRead
  else match findKey r.keyVector key with
    | none => .error .keyNotFound
    | some i => match r.valueVector[i]? with
      | some v => .ok v
      | none => .error .keyNotFound   -- out of range, unreachable: both vectors grow together (`Inv`)

/-- Leading decimal digits, as a number, and how many there were. -/
def digits : Str → Nat → Nat × Nat
  | [], acc => (acc, 0)
  | c :: cs, acc =>
    if 48 ≤ c.toNat ∧ c.toNat ≤ 57 then
      let (v, n) := digits cs (acc * 10 + (c.toNat - 48))
      (v, n + 1)
    else (acc, 0)

/-- `std::stoi` on a token (no leading blanks possible): optional sign, longest digit prefix; no
digits or a value outside `int` throws. Characters after the digits are ignored. -/
def stoi (s : Str) : Option Int :=
  let (neg, rest) := match s with
    | '-' :: t => (true, t)
    | '+' :: t => (false, t)
    | t => (false, t)
  let (v, n) := digits rest 0
  if n = 0 then none
  else
    let x : Int := if neg then - (v : Int) else v
    if -2147483648 ≤ x ∧ x ≤ 2147483647 then some x else none

/-- `getInt` (src/KeyValueReader.cc:401-419). -/
def getInt (r : Reader) (key : Str) : Except Exn Int :=
  match getString r key with
  | .error e => .error e
  | .ok v => match stoi v with
    | some x => .ok x
    | none => .error .stringConversionError

/-- `getDouble`, `getFloat` (src/KeyValueReader.cc:429-475) for a conversion function. -/
def getDouble {δ : Type} (stod : Str → Option δ) (r : Reader) (key : Str) : Except Exn δ :=
  match getString r key with
  | .error e => .error e
  | .ok v => match stod v with
    | some x => .ok x
    | none => .error .stringConversionError

/-- `getBool` (src/KeyValueReader.cc:485-510). -/
def getBool (r : Reader) (key : Str) : Except Exn Bool :=
  match getString r key with
  | .error e => .error e
  | .ok v =>
    if areStringsEqual v "true".toList then .ok true
    else if areStringsEqual v "false".toList then .ok false
    else .error .stringConversionError

/-- `print` (src/KeyValueReader.cc:519-535): file name and pairs printed. -/
def printPairs (r : Reader) : Except Exn (Str × List (Str × Str)) :=
  if r.isFileRead = false then .error .fileNotRead
  else .ok (r.filename, r.keyVector.zip r.valueVector)

/-- Operations of the public interface. -/
inductive Op
  | readFile (filename : Str)
  | getString (key : Str)
  | getInt (key : Str)
  | getDouble (key : Str)
  | getBool (key : Str)
  | print
  | reset

/-- Observable results. -/
inductive Out (δ : Type)
  | done
  | str (v : Str)
  | int (v : Int)
  | dbl (v : δ)
  | bool (v : Bool)
  | printed (filename : Str) (pairs : List (Str × Str))
  | thrown (e : Exn)
deriving DecidableEq

/-- One call of the public interface. -/
def step {δ : Type} (stod : Str → Option δ) (fs : Str → Option Str) (r : Reader) :
    Op → Reader × Out δ
  | .readFile f => let (r', e) := readFile fs r f
      (r', match e with | none => .done | some e => .thrown e)
  | .getString k => (r, match getString r k with | .ok v => .str v | .error e => .thrown e)
  | .getInt k => (r, match getInt r k with | .ok v => .int v | .error e => .thrown e)
  | .getDouble k => (r, match getDouble stod r k with | .ok v => .dbl v | .error e => .thrown e)
  | .getBool k => (r, match getBool r k with | .ok v => .bool v | .error e => .thrown e)
  | .print => (r, match printPairs r with | .ok (f, ps) => .printed f ps | .error e => .thrown e)
  | .reset => (Reader.new, .done)

/-- A history of calls. -/
def run {δ : Type} (stod : Str → Option δ) (fs : Str → Option Str) (r : Reader) :
    List Op → List (Out δ)
  | [] => []
  | op :: ops => let (r', o) := step stod fs r op
      o :: run stod fs r' ops

/-! ## Option words (src/Main.cc:133-176) -/

/-- `enum MPIType` (src/Global.hh:80-84). -/
inductive MPIType | tychoTwoSided | capsaicinTwoSided deriving DecidableEq
/-- `enum SweepType` (src/Global.hh:86-97). -/
inductive SweepType
  | originalTycho1 | originalTycho2 | traverseGraph | pbj | pbjOuter | schur | schurOuter | pbjsi
  | schurKrylov
deriving DecidableEq
/-- `enum GaussElim` (src/Global.hh:99-105). -/
inductive GaussElimWord | original | noPivot | cramerGlu | cramerIntel deriving DecidableEq

/-- src/Main.cc:135-140; `none` is the failed `Insist`. -/
def selectMPI (w : Str) : Option MPIType :=
  if w = "TychoTwoSided".toList then some .tychoTwoSided
  else if w = "CapsaicinTwoSided".toList then some .capsaicinTwoSided
  else none

/-- src/Main.cc:145-164; `none` is the failed `Insist`. -/
def selectSweep (w : Str) : Option SweepType :=
  if w = "OriginalTycho1".toList then some .originalTycho1
  else if w = "OriginalTycho2".toList then some .originalTycho2
  else if w = "TraverseGraph".toList then some .traverseGraph
  else if w = "PBJ".toList then some .pbj
  else if w = "PBJOuter".toList then some .pbjOuter
  else if w = "Schur".toList then some .schur
  else if w = "SchurOuter".toList then some .schurOuter
  else if w = "PBJSI".toList then some .pbjsi
  else if w = "SchurKrylov".toList then some .schurKrylov
  else none

/-- src/Main.cc:169-176: no final `else`, the old value of the global stays. -/
def selectGauss (old : GaussElimWord) (w : Str) : Option GaussElimWord :=
  if w = "Original".toList then some .original
  else if w = "NoPivot".toList then some .noPivot
  else if w = "CramerGlu".toList then some .cramerGlu
  else if w = "CramerIntel".toList then some .cramerIntel
  else some old

/-- The settings `readInput` stores (src/Main.cc:92-178). Integers become `UINT` (mod 2^64). -/
structure Settings (δ : Type) where
  snOrder : Nat
  iterMax : Nat
  errMax : δ
  maxCellsPerStep : Nat
  intraAngleP : Nat
  interAngleP : Nat
  nGroups : Nat
  sigmaT1 : δ
  sigmaS1 : δ
  sigmaT2 : δ
  sigmaS2 : δ
  outputFile : Bool
  outputFilename : Str
  ddIterMax : Nat
  ddErrMax : δ
  sourceIteration : Bool
  mpiType : MPIType
  sweepType : SweepType
  gaussElim : GaussElimWord

/-- `int` to `UINT` conversion. -/
def toUINT (x : Int) : Nat := (x % 18446744073709551616).toNat

/-- Why `readInput` stops: an exception of the reader or a failed `Insist`. -/
inductive Stop
  | exn (e : Exn)
  | insist
deriving DecidableEq

/-- An exception of the reader, uncaught. -/
def lift {α : Type} : Except Exn α → Except Stop α
  | .ok a => .ok a
  | .error e => .error (.exn e)

/-- A failed `Insist`. -/
def insist {α : Type} : Option α → Except Stop α
  | some a => .ok a
  | none => .error .insist

/-- `readInput` (src/Main.cc:92-178). `old` is the value of `g_gaussElim` before (zero-initialised
global: `GaussElim_Original`). -/
def readInput {δ : Type} (stod : Str → Option δ) (fs : Str → Option Str) (old : GaussElimWord)
    (inputFileName : Str) : Except Stop (Settings δ) :=
  let (kvr, e) := readFile fs Reader.new inputFileName
  match e with
  | some e => .error (.exn e)
  | none => do
    let snOrder ← lift (getInt kvr "snOrder".toList)
    let iterMax ← lift (getInt kvr "iterMax".toList)
    let errMax ← lift (getDouble stod kvr "errMax".toList)
    let maxCellsPerStep ← lift (getInt kvr "maxCellsPerStep".toList)
    let intraAngleP ← lift (getInt kvr "intraAngleP".toList)
    let interAngleP ← lift (getInt kvr "interAngleP".toList)
    let nGroups ← lift (getInt kvr "nGroups".toList)
    let sigmaT1 ← lift (getDouble stod kvr "sigmaT1".toList)
    let sigmaS1 ← lift (getDouble stod kvr "sigmaS1".toList)
    let sigmaT2 ← lift (getDouble stod kvr "sigmaT2".toList)
    let sigmaS2 ← lift (getDouble stod kvr "sigmaS2".toList)
    let outputFile ← lift (getBool kvr "OutputFile".toList)
    let outputFilename ← lift (getString kvr "OutputFilename".toList)
    let ddIterMax ← lift (getInt kvr "DD_IterMax".toList)
    let ddErrMax ← lift (getDouble stod kvr "DD_ErrMax".toList)
    let sourceIteration ← lift (getBool kvr "SourceIteration".toList)
    let mpiWord ← lift (getString kvr "MPIType".toList)
    let mpiType ← insist (selectMPI mpiWord)
    let sweepWord ← lift (getString kvr "SweepType".toList)
    let sweepType ← insist (selectSweep sweepWord)
    let gaussWord ← lift (getString kvr "GaussElim".toList)
    let gaussElim ← insist (selectGauss old gaussWord)
    .ok { snOrder := toUINT snOrder, iterMax := toUINT iterMax, errMax := errMax,
          maxCellsPerStep := toUINT maxCellsPerStep, intraAngleP := toUINT intraAngleP,
          interAngleP := toUINT interAngleP, nGroups := toUINT nGroups, sigmaT1 := sigmaT1,
          sigmaS1 := sigmaS1, sigmaT2 := sigmaT2, sigmaS2 := sigmaS2, outputFile := outputFile,
          outputFilename := outputFilename, ddIterMax := toUINT ddIterMax, ddErrMax := ddErrMax,
          sourceIteration := sourceIteration, mpiType := mpiType, sweepType := sweepType,
          gaussElim := gaussElim }

end Verif.Input
