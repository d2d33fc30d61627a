import Verif.Storage.Props
import Verif.Bytes.Basic

/-!
# The output file

Transcription of `PsiData::writeToFile` (src/PsiData.cc:62-106) and `Comm::writeDoublesAt`
(src/Comm.cc:410-416).

* A `double` is its 64-bit pattern, stored least significant byte first.
* The file is new (`Comm::openFileForWrite` deletes an existing one, src/Comm.cc:314-338): no byte of it
  is there yet. Opening, deleting and closing succeed.
* `MPI_File_write_at` with a negative count or position fails, which ends the run (`Insist`): `none`.
  Reading past the flux array is undefined: `none`.
* Ranks write concurrently: the bytes of all writes reach the file in any order.
-/
namespace Verif.PsiFile

open Verif.Storage Verif.Bytes

/-- The bytes of a file by position; `none` where nothing was written. -/
abbrev File := Nat → Option UInt8

/-- Conversion of a `size_t` value to a 32-bit `int`. -/
def toInt32 (n : Nat) : Int :=
  if n % 2 ^ 32 < 2 ^ 31 then (n % 2 ^ 32 : Nat) else (n % 2 ^ 32 : Nat) - (2 ^ 32 : Nat)

/-- `writeDoublesAt(file, offset, data, numData)` (src/Comm.cc:410-416) as the bytes it writes. `src` are the
bytes from `data` to the end of the array it points into. -/
def writeDoublesAt (offset : Nat) (src : List UInt8) (numData : Int) : Option (List (Nat × UInt8)) :=
  let pos := wmul offset 8
  if numData < 0 ∨ 2 ^ 63 ≤ pos then none
  else if src.length < 8 * numData.toNat then none
  else some (((src.take (8 * numData.toNat)).zipIdx pos).map fun t => (t.2, t.1))

/-- `outputName` (src/PsiData.cc:65-68). -/
def outputName : List UInt8 :=
  [0x54, 0x79, 0x63, 0x68, 0x6f, 0x20, 0x32, 0x20, 0x50, 0x73, 0x69, 0x20, 0x4f, 0x75, 0x74, 0x70, 0x75, 0x74,
    0, 0, 0, 0, 0, 0, 0, 0, 0, 0, 0, 0, 0, 0]

/-- `header` (src/PsiData.cc:69-89): name, version, number of cells (`Comm::gsum`), angles, groups. -/
def header (total : Nat) (p : PsiData Nat) : List UInt8 :=
  outputName ++ enc64 1 ++ enc64 (total % 2 ^ 64) ++ enc64 p.na ++ enc64 p.ng

/-- `dataSize` (src/PsiData.cc:96). -/
def dataSize (p : PsiData Nat) : Int := toInt32 (wmul (wmul p.na p.ng) p.nv)

/-- One turn of the loop (src/PsiData.cc:95-101). `lg` is `getLGCell`. -/
def writeCell (p : PsiData Nat) (lg : Nat → Nat) (cell : Nat) : Option (List (Nat × UInt8)) :=
  (p.index 0 0 0 cell).bind fun i =>
    writeDoublesAt ((8 + (lg cell : Int) * dataSize p) % (2 ^ 64 : Nat)).toNat ((p.data.drop i).flatMap enc64)
      (dataSize p)

/-- The header is written by rank 0 (src/PsiData.cc:86-91). -/
def writeHeader (total rank : Nat) (p : PsiData Nat) : Option (List (Nat × UInt8)) :=
  if rank = 0 then writeDoublesAt 0 (header total p) 8 else some []

/-- What one rank writes (src/PsiData.cc:86-101). -/
def rankWrites (total rank : Nat) (p : PsiData Nat) (lg : Nat → Nat) : Option (List (Nat × UInt8)) := do
  let h ← writeHeader total rank p
  let cs ← (List.range p.nc).mapM (writeCell p lg)
  return h ++ cs.flatten

/-- The file after writing bytes in the given order. -/
def putAll (ws : List (Nat × UInt8)) : File :=
  ws.foldl (fun f w q => if q = w.1 then some w.2 else f q) fun _ => none

/-- `writeToFile` on `n` ranks (src/PsiData.cc:62-106) may leave the file `f`. -/
def Written (n : Nat) (p : Nat → PsiData Nat) (lg : Nat → Nat → Nat) (f : File) : Prop :=
  ∃ ws : Nat → List (Nat × UInt8),
    (∀ r < n, rankWrites ((List.range n).map fun r => (p r).nc).sum r (p r) (lg r) = some (ws r)) ∧
    ∃ order, order.Perm ((List.range n).flatMap ws) ∧ f = putAll order

end Verif.PsiFile
