/-!
# Storage: flux arrays and dense matrices

Transcription of `src/PsiData.hh` and `src/Mat.hh`.

* `size_t` arithmetic wraps modulo `2^64` (`wadd`, `wmul`).
* A failing `Assert` (src/Assert.hh:52-58, on when `ASSERT_ON`) is the outcome `none`; so is an
  access outside the allocation (undefined behaviour in C++).
* `double` / `T` is an arbitrary type `α`.
* Ownership flags, deleted copy constructors and destructors are not modelled.
-/
namespace Verif.Storage

/-- 2^64, the modulus of `size_t`. -/
def W : Nat := 2 ^ 64

/-- `size_t` addition. -/
def wadd (a b : Nat) : Nat := (a + b) % W
/-- `size_t` multiplication. -/
def wmul (a b : Nat) : Nat := (a * b) % W

/-- Checked array read: `none` models an out-of-bounds access. -/
def rd {α : Type} (l : List α) (i : Nat) : Option α := l[i]?
/-- Checked array write: `none` models an out-of-bounds access. -/
def wr {α : Type} (l : List α) (i : Nat) (x : α) : Option (List α) :=
  if i < l.length then some (l.set i x) else none

/-! ## PsiData: src/PsiData.hh:59-164 -/

/-- Fields of `PsiData` (src/PsiData.hh:149-151). -/
structure PsiData (α : Type) where
  ng : Nat
  nv : Nat
  na : Nat
  nc : Nat
  data : List α

namespace PsiData
variable {α : Type}

/-- `size()` (src/PsiData.hh:87-90): `c_ng * c_nv * c_na * c_nc`. -/
def size (p : PsiData α) : Nat := wmul (wmul (wmul p.ng p.nv) p.na) p.nc

/-- `index` (src/PsiData.hh:155-163). -/
def index (p : PsiData α) (g v a c : Nat) : Option Nat :=
  if g < p.ng ∧ v < p.nv ∧ a < p.na ∧ c < p.nc then
    some (wadd (wmul (wadd (wmul (wadd (wmul c p.na) a) p.nv) v) p.ng) g)
  else none

/-- `operator()` read (src/PsiData.hh:63-71). -/
def get (p : PsiData α) (g v a c : Nat) : Option α := (p.index g v a c).bind (rd p.data)

/-- `operator()` write (src/PsiData.hh:63-66). -/
def set (p : PsiData α) (g v a c : Nat) (x : α) : Option (PsiData α) :=
  (p.index g v a c).bind fun i => (wr p.data i x).map fun d => { p with data := d }

/-- `operator[]` read (src/PsiData.hh:73-83). -/
def getLin (p : PsiData α) (i : Nat) : Option α := if i < p.size then rd p.data i else none

/-- Constructor (src/PsiData.hh:94-103): allocate `size()` entries, set to 0.0. -/
def new (zero : α) (ng nv na nc : Nat) : PsiData α :=
  { ng := ng, nv := nv, na := na, nc := nc,
    data := List.replicate (wmul (wmul (wmul ng nv) na) nc) zero }

/-- `setToValue` (src/PsiData.hh:132-140). -/
def setToValue (p : PsiData α) (x : α) : PsiData α := { p with data := p.data.map fun _ => x }

end PsiData

/-! ## PsiBoundData: src/PsiData.hh:175-264 -/

structure PsiBoundData (α : Type) where
  ng : Nat
  nv : Nat
  na : Nat
  ns : Nat
  data : List α

namespace PsiBoundData
variable {α : Type}

/-- `size()` (src/PsiData.hh:203-206). -/
def size (p : PsiBoundData α) : Nat := wmul (wmul (wmul p.ng p.nv) p.na) p.ns

/-- `index` (src/PsiData.hh:255-263). -/
def index (p : PsiBoundData α) (g v a s : Nat) : Option Nat :=
  if g < p.ng ∧ v < p.nv ∧ a < p.na ∧ s < p.ns then
    some (wadd (wmul (wadd (wmul (wadd (wmul s p.na) a) p.nv) v) p.ng) g)
  else none

/-- `operator()` read (src/PsiData.hh:179-187). -/
def get (p : PsiBoundData α) (g v a s : Nat) : Option α := (p.index g v a s).bind (rd p.data)

/-- `operator()` write. -/
def set (p : PsiBoundData α) (g v a s : Nat) (x : α) : Option (PsiBoundData α) :=
  (p.index g v a s).bind fun i => (wr p.data i x).map fun d => { p with data := d }

/-- `operator[]` read (src/PsiData.hh:189-199). -/
def getLin (p : PsiBoundData α) (i : Nat) : Option α := if i < p.size then rd p.data i else none

/-- Constructor (src/PsiData.hh:210-218). -/
def new (zero : α) (ng nv na ns : Nat) : PsiBoundData α :=
  { ng := ng, nv := nv, na := na, ns := ns,
    data := List.replicate (wmul (wmul (wmul ng nv) na) ns) zero }

/-- `setToValue` (src/PsiData.hh:237-245). -/
def setToValue (p : PsiBoundData α) (x : α) : PsiBoundData α :=
  { p with data := p.data.map fun _ => x }

end PsiBoundData

/-! ## PhiData: src/PsiData.hh:274-371 -/

structure PhiData (α : Type) where
  ng : Nat
  nv : Nat
  nc : Nat
  data : List α

namespace PhiData
variable {α : Type}

/-- `size()` (src/PsiData.hh:302-305). -/
def size (p : PhiData α) : Nat := wmul (wmul p.ng p.nv) p.nc

/-- `index` (src/PsiData.hh:363-370). -/
def index (p : PhiData α) (g v c : Nat) : Option Nat :=
  if g < p.ng ∧ v < p.nv ∧ c < p.nc then
    some (wadd (wmul (wadd (wmul c p.nv) v) p.ng) g)
  else none

/-- `operator()` read (src/PsiData.hh:278-286). -/
def get (p : PhiData α) (g v c : Nat) : Option α := (p.index g v c).bind (rd p.data)

/-- `operator()` write. -/
def set (p : PhiData α) (g v c : Nat) (x : α) : Option (PhiData α) :=
  (p.index g v c).bind fun i => (wr p.data i x).map fun d => { p with data := d }

/-- `operator[]` read (src/PsiData.hh:288-298). -/
def getLin (p : PhiData α) (i : Nat) : Option α := if i < p.size then rd p.data i else none

/-- Constructor (src/PsiData.hh:309-317). -/
def new (zero : α) (ng nv nc : Nat) : PhiData α :=
  { ng := ng, nv := nv, nc := nc, data := List.replicate (wmul (wmul ng nv) nc) zero }

/-- `setToValue` (src/PsiData.hh:345-353). -/
def setToValue (p : PhiData α) (x : α) : PhiData α := { p with data := p.data.map fun _ => x }

end PhiData

/-! ## Mat1, Mat2, Mat3: src/Mat.hh -/

/-- `Mat1` (src/Mat.hh:52-150). -/
structure Mat1 (α : Type) where
  xlen : Nat
  data : List α

namespace Mat1
variable {α : Type}

/-- `index` (src/Mat.hh:63-67). -/
def index (m : Mat1 α) (i : Nat) : Option Nat := if i < m.xlen then some i else none
/-- `operator()` / `operator[]` read. -/
def get (m : Mat1 α) (i : Nat) : Option α := (m.index i).bind (rd m.data)
/-- `operator()` / `operator[]` write. -/
def set (m : Mat1 α) (i : Nat) (x : α) : Option (Mat1 α) :=
  (m.index i).bind fun k => (wr m.data k x).map fun d => { m with data := d }
/-- Constructor and `resize`: `T()` everywhere. -/
def new (dflt : α) (x : Nat) : Mat1 α := { xlen := x, data := List.replicate x dflt }
/-- `resize` (src/Mat.hh:140-149): old contents are discarded. -/
def resize (_m : Mat1 α) (dflt : α) (x : Nat) : Mat1 α := new dflt x

end Mat1

/-- `Mat2` (src/Mat.hh:159-281). -/
structure Mat2 (α : Type) where
  xlen : Nat
  ylen : Nat
  data : List α

namespace Mat2
variable {α : Type}

/-- `size()`. -/
def size (m : Mat2 α) : Nat := wmul m.xlen m.ylen
/-- `index` (src/Mat.hh:170-176): `j * c_xlen + i`. -/
def index (m : Mat2 α) (i j : Nat) : Option Nat :=
  if i < m.xlen ∧ j < m.ylen then some (wadd (wmul j m.xlen) i) else none
/-- `operator()` read. -/
def get (m : Mat2 α) (i j : Nat) : Option α := (m.index i j).bind (rd m.data)
/-- `operator()` write. -/
def set (m : Mat2 α) (i j : Nat) (x : α) : Option (Mat2 α) :=
  (m.index i j).bind fun k => (wr m.data k x).map fun d => { m with data := d }
/-- Constructor: `T()` everywhere. -/
def new (dflt : α) (x y : Nat) : Mat2 α :=
  { xlen := x, ylen := y, data := List.replicate (wmul x y) dflt }
/-- `resize` (src/Mat.hh:270-280): old contents are discarded. -/
def resize (_m : Mat2 α) (dflt : α) (x y : Nat) : Mat2 α := new dflt x y
/-- `setAll` (src/Mat.hh:252-257). -/
def setAll (m : Mat2 α) (x : α) : Mat2 α := { m with data := m.data.map fun _ => x }
/-- `setData` (src/Mat.hh:261-266): copy `size()` entries from a raw buffer;
    `none` if the buffer is shorter (out-of-bounds read). -/
def setData (m : Mat2 α) (src : List α) : Option (Mat2 α) :=
  if m.size ≤ src.length then some { m with data := src.take m.size } else none

end Mat2

/-- `Mat3` (src/Mat.hh:289-398). -/
structure Mat3 (α : Type) where
  xlen : Nat
  ylen : Nat
  zlen : Nat
  data : List α

namespace Mat3
variable {α : Type}

/-- `size()`. -/
def size (m : Mat3 α) : Nat := wmul (wmul m.xlen m.ylen) m.zlen
/-- `index` (src/Mat.hh:300-307): `(k * c_ylen + j) * c_xlen + i`. -/
def index (m : Mat3 α) (i j k : Nat) : Option Nat :=
  if i < m.xlen ∧ j < m.ylen ∧ k < m.zlen then
    some (wadd (wmul (wadd (wmul k m.ylen) j) m.xlen) i) else none
/-- `operator()` read. -/
def get (m : Mat3 α) (i j k : Nat) : Option α := (m.index i j k).bind (rd m.data)
/-- `operator()` write. -/
def set (m : Mat3 α) (i j k : Nat) (x : α) : Option (Mat3 α) :=
  (m.index i j k).bind fun n => (wr m.data n x).map fun d => { m with data := d }
/-- Constructor / `resize`: `T()` everywhere. -/
def new (dflt : α) (x y z : Nat) : Mat3 α :=
  { xlen := x, ylen := y, zlen := z, data := List.replicate (wmul (wmul x y) z) dflt }
/-- `resize` (src/Mat.hh:386-397): old contents are discarded. -/
def resize (_m : Mat3 α) (dflt : α) (x y z : Nat) : Mat3 α := new dflt x y z

end Mat3

end Verif.Storage
