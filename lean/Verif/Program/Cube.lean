import Verif.Program.Certificate

/-!
# The mesh cube-12.smesh (C76)

util/cube-12.smesh, the smallest of the meshes that come with the program, byte by byte: 12 cells around a node
near the centre of the cube. It satisfies the conditions of the theorems on the program.
-/
set_option linter.unusedVariables false
set_option linter.unusedSimpArgs false
namespace Verif.Program

open Verif.MeshFile Verif.TychoMesh Verif.Geometry Verif.Geometry.Spec Verif.Program.Spec
open Verif.Traverse (Psi)
open Verif.Quadrature (quadrature direction)

/-- The bytes of util/cube-12.smesh. -/
def cubeBytes : List Nat :=
  [84, 121, 99, 104, 111, 32, 50, 32, 83, 101, 114, 105, 97, 108, 32, 77, 101, 115, 104, 0, 0, 0, 0, 0, 0, 0, 0, 0, 0, 0, 0, 0, 2, 0, 0, 0, 0, 0, 0, 0,
    12, 0, 0, 0, 0, 0, 0, 0, 30, 0, 0, 0, 0, 0, 0, 0, 9, 0, 0, 0, 0, 0, 0, 0, 2, 0, 0, 0, 0, 0, 0, 0, 12, 0, 0, 0, 0, 0, 0, 0,
    13, 0, 0, 0, 0, 0, 0, 0, 14, 0, 0, 0, 0, 0, 0, 0, 4, 0, 0, 0, 0, 0, 0, 0, 6, 0, 0, 0, 0, 0, 0, 0, 7, 0, 0, 0, 0, 0, 0, 0,
    8, 0, 0, 0, 0, 0, 0, 0, 1, 0, 0, 0, 0, 0, 0, 0, 0, 0, 0, 0, 0, 0, 0, 0, 15, 0, 0, 0, 0, 0, 0, 0, 16, 0, 0, 0, 0, 0, 0, 0,
    17, 0, 0, 0, 0, 0, 0, 0, 0, 0, 0, 0, 0, 0, 0, 0, 2, 0, 0, 0, 0, 0, 0, 0, 3, 0, 0, 0, 0, 0, 0, 0, 8, 0, 0, 0, 0, 0, 0, 0,
    1, 0, 0, 0, 0, 0, 0, 0, 1, 0, 0, 0, 0, 0, 0, 0, 16, 0, 0, 0, 0, 0, 0, 0, 18, 0, 0, 0, 0, 0, 0, 0, 19, 0, 0, 0, 0, 0, 0, 0,
    0, 0, 0, 0, 0, 0, 0, 0, 1, 0, 0, 0, 0, 0, 0, 0, 3, 0, 0, 0, 0, 0, 0, 0, 8, 0, 0, 0, 0, 0, 0, 0, 1, 0, 0, 0, 0, 0, 0, 0,
    8, 0, 0, 0, 0, 0, 0, 0, 19, 0, 0, 0, 0, 0, 0, 0, 20, 0, 0, 0, 0, 0, 0, 0, 21, 0, 0, 0, 0, 0, 0, 0, 1, 0, 0, 0, 0, 0, 0, 0,
    3, 0, 0, 0, 0, 0, 0, 0, 5, 0, 0, 0, 0, 0, 0, 0, 8, 0, 0, 0, 0, 0, 0, 0, 1, 0, 0, 0, 0, 0, 0, 0, 9, 0, 0, 0, 0, 0, 0, 0,
    21, 0, 0, 0, 0, 0, 0, 0, 22, 0, 0, 0, 0, 0, 0, 0, 23, 0, 0, 0, 0, 0, 0, 0, 3, 0, 0, 0, 0, 0, 0, 0, 5, 0, 0, 0, 0, 0, 0, 0,
    7, 0, 0, 0, 0, 0, 0, 0, 8, 0, 0, 0, 0, 0, 0, 0, 1, 0, 0, 0, 0, 0, 0, 0, 6, 0, 0, 0, 0, 0, 0, 0, 17, 0, 0, 0, 0, 0, 0, 0,
    23, 0, 0, 0, 0, 0, 0, 0, 24, 0, 0, 0, 0, 0, 0, 0, 2, 0, 0, 0, 0, 0, 0, 0, 3, 0, 0, 0, 0, 0, 0, 0, 7, 0, 0, 0, 0, 0, 0, 0,
    8, 0, 0, 0, 0, 0, 0, 0, 1, 0, 0, 0, 0, 0, 0, 0, 10, 0, 0, 0, 0, 0, 0, 0, 15, 0, 0, 0, 0, 0, 0, 0, 25, 0, 0, 0, 0, 0, 0, 0,
    26, 0, 0, 0, 0, 0, 0, 0, 0, 0, 0, 0, 0, 0, 0, 0, 2, 0, 0, 0, 0, 0, 0, 0, 4, 0, 0, 0, 0, 0, 0, 0, 8, 0, 0, 0, 0, 0, 0, 0,
    1, 0, 0, 0, 0, 0, 0, 0, 5, 0, 0, 0, 0, 0, 0, 0, 25, 0, 0, 0, 0, 0, 0, 0, 27, 0, 0, 0, 0, 0, 0, 0, 28, 0, 0, 0, 0, 0, 0, 0,
    0, 0, 0, 0, 0, 0, 0, 0, 4, 0, 0, 0, 0, 0, 0, 0, 5, 0, 0, 0, 0, 0, 0, 0, 8, 0, 0, 0, 0, 0, 0, 0, 1, 0, 0, 0, 0, 0, 0, 0,
    3, 0, 0, 0, 0, 0, 0, 0, 14, 0, 0, 0, 0, 0, 0, 0, 22, 0, 0, 0, 0, 0, 0, 0, 28, 0, 0, 0, 0, 0, 0, 0, 4, 0, 0, 0, 0, 0, 0, 0,
    5, 0, 0, 0, 0, 0, 0, 0, 7, 0, 0, 0, 0, 0, 0, 0, 8, 0, 0, 0, 0, 0, 0, 0, 1, 0, 0, 0, 0, 0, 0, 0, 11, 0, 0, 0, 0, 0, 0, 0,
    13, 0, 0, 0, 0, 0, 0, 0, 26, 0, 0, 0, 0, 0, 0, 0, 29, 0, 0, 0, 0, 0, 0, 0, 2, 0, 0, 0, 0, 0, 0, 0, 4, 0, 0, 0, 0, 0, 0, 0,
    6, 0, 0, 0, 0, 0, 0, 0, 8, 0, 0, 0, 0, 0, 0, 0, 1, 0, 0, 0, 0, 0, 0, 0, 7, 0, 0, 0, 0, 0, 0, 0, 12, 0, 0, 0, 0, 0, 0, 0,
    24, 0, 0, 0, 0, 0, 0, 0, 29, 0, 0, 0, 0, 0, 0, 0, 2, 0, 0, 0, 0, 0, 0, 0, 6, 0, 0, 0, 0, 0, 0, 0, 7, 0, 0, 0, 0, 0, 0, 0,
    8, 0, 0, 0, 0, 0, 0, 0, 1, 0, 0, 0, 0, 0, 0, 0, 4, 0, 0, 0, 0, 0, 0, 0, 18, 0, 0, 0, 0, 0, 0, 0, 20, 0, 0, 0, 0, 0, 0, 0,
    27, 0, 0, 0, 0, 0, 0, 0, 0, 0, 0, 0, 0, 0, 0, 0, 1, 0, 0, 0, 0, 0, 0, 0, 5, 0, 0, 0, 0, 0, 0, 0, 8, 0, 0, 0, 0, 0, 0, 0,
    1, 0, 0, 0, 0, 0, 0, 0, 1, 0, 0, 0, 0, 0, 0, 0, 255, 255, 255, 255, 255, 255, 255, 255, 0, 0, 0, 0, 0, 0, 0, 0, 2, 0, 0, 0, 0, 0, 0, 0,
    3, 0, 0, 0, 0, 0, 0, 0, 2, 0, 0, 0, 0, 0, 0, 0, 255, 255, 255, 255, 255, 255, 255, 255, 0, 0, 0, 0, 0, 0, 0, 0, 1, 0, 0, 0, 0, 0, 0, 0,
    3, 0, 0, 0, 0, 0, 0, 0, 0, 0, 0, 0, 0, 0, 0, 0, 255, 255, 255, 255, 255, 255, 255, 255, 4, 0, 0, 0, 0, 0, 0, 0, 6, 0, 0, 0, 0, 0, 0, 0,
    7, 0, 0, 0, 0, 0, 0, 0, 8, 0, 0, 0, 0, 0, 0, 0, 255, 255, 255, 255, 255, 255, 255, 255, 4, 0, 0, 0, 0, 0, 0, 0, 5, 0, 0, 0, 0, 0, 0, 0,
    7, 0, 0, 0, 0, 0, 0, 0, 11, 0, 0, 0, 0, 0, 0, 0, 255, 255, 255, 255, 255, 255, 255, 255, 0, 0, 0, 0, 0, 0, 0, 0, 1, 0, 0, 0, 0, 0, 0, 0,
    5, 0, 0, 0, 0, 0, 0, 0, 7, 0, 0, 0, 0, 0, 0, 0, 255, 255, 255, 255, 255, 255, 255, 255, 0, 0, 0, 0, 0, 0, 0, 0, 4, 0, 0, 0, 0, 0, 0, 0,
    5, 0, 0, 0, 0, 0, 0, 0, 5, 0, 0, 0, 0, 0, 0, 0, 255, 255, 255, 255, 255, 255, 255, 255, 2, 0, 0, 0, 0, 0, 0, 0, 3, 0, 0, 0, 0, 0, 0, 0,
    7, 0, 0, 0, 0, 0, 0, 0, 10, 0, 0, 0, 0, 0, 0, 0, 255, 255, 255, 255, 255, 255, 255, 255, 2, 0, 0, 0, 0, 0, 0, 0, 6, 0, 0, 0, 0, 0, 0, 0,
    7, 0, 0, 0, 0, 0, 0, 0, 3, 0, 0, 0, 0, 0, 0, 0, 255, 255, 255, 255, 255, 255, 255, 255, 1, 0, 0, 0, 0, 0, 0, 0, 3, 0, 0, 0, 0, 0, 0, 0,
    5, 0, 0, 0, 0, 0, 0, 0, 4, 0, 0, 0, 0, 0, 0, 0, 255, 255, 255, 255, 255, 255, 255, 255, 3, 0, 0, 0, 0, 0, 0, 0, 5, 0, 0, 0, 0, 0, 0, 0,
    7, 0, 0, 0, 0, 0, 0, 0, 6, 0, 0, 0, 0, 0, 0, 0, 255, 255, 255, 255, 255, 255, 255, 255, 0, 0, 0, 0, 0, 0, 0, 0, 2, 0, 0, 0, 0, 0, 0, 0,
    4, 0, 0, 0, 0, 0, 0, 0, 9, 0, 0, 0, 0, 0, 0, 0, 255, 255, 255, 255, 255, 255, 255, 255, 2, 0, 0, 0, 0, 0, 0, 0, 4, 0, 0, 0, 0, 0, 0, 0,
    6, 0, 0, 0, 0, 0, 0, 0, 0, 0, 0, 0, 0, 0, 0, 0, 10, 0, 0, 0, 0, 0, 0, 0, 6, 0, 0, 0, 0, 0, 0, 0, 7, 0, 0, 0, 0, 0, 0, 0,
    8, 0, 0, 0, 0, 0, 0, 0, 0, 0, 0, 0, 0, 0, 0, 0, 9, 0, 0, 0, 0, 0, 0, 0, 4, 0, 0, 0, 0, 0, 0, 0, 6, 0, 0, 0, 0, 0, 0, 0,
    8, 0, 0, 0, 0, 0, 0, 0, 0, 0, 0, 0, 0, 0, 0, 0, 8, 0, 0, 0, 0, 0, 0, 0, 4, 0, 0, 0, 0, 0, 0, 0, 7, 0, 0, 0, 0, 0, 0, 0,
    8, 0, 0, 0, 0, 0, 0, 0, 1, 0, 0, 0, 0, 0, 0, 0, 6, 0, 0, 0, 0, 0, 0, 0, 0, 0, 0, 0, 0, 0, 0, 0, 2, 0, 0, 0, 0, 0, 0, 0,
    8, 0, 0, 0, 0, 0, 0, 0, 1, 0, 0, 0, 0, 0, 0, 0, 2, 0, 0, 0, 0, 0, 0, 0, 0, 0, 0, 0, 0, 0, 0, 0, 3, 0, 0, 0, 0, 0, 0, 0,
    8, 0, 0, 0, 0, 0, 0, 0, 1, 0, 0, 0, 0, 0, 0, 0, 5, 0, 0, 0, 0, 0, 0, 0, 2, 0, 0, 0, 0, 0, 0, 0, 3, 0, 0, 0, 0, 0, 0, 0,
    8, 0, 0, 0, 0, 0, 0, 0, 2, 0, 0, 0, 0, 0, 0, 0, 11, 0, 0, 0, 0, 0, 0, 0, 0, 0, 0, 0, 0, 0, 0, 0, 1, 0, 0, 0, 0, 0, 0, 0,
    8, 0, 0, 0, 0, 0, 0, 0, 2, 0, 0, 0, 0, 0, 0, 0, 3, 0, 0, 0, 0, 0, 0, 0, 1, 0, 0, 0, 0, 0, 0, 0, 3, 0, 0, 0, 0, 0, 0, 0,
    8, 0, 0, 0, 0, 0, 0, 0, 3, 0, 0, 0, 0, 0, 0, 0, 11, 0, 0, 0, 0, 0, 0, 0, 1, 0, 0, 0, 0, 0, 0, 0, 5, 0, 0, 0, 0, 0, 0, 0,
    8, 0, 0, 0, 0, 0, 0, 0, 3, 0, 0, 0, 0, 0, 0, 0, 4, 0, 0, 0, 0, 0, 0, 0, 3, 0, 0, 0, 0, 0, 0, 0, 5, 0, 0, 0, 0, 0, 0, 0,
    8, 0, 0, 0, 0, 0, 0, 0, 4, 0, 0, 0, 0, 0, 0, 0, 8, 0, 0, 0, 0, 0, 0, 0, 5, 0, 0, 0, 0, 0, 0, 0, 7, 0, 0, 0, 0, 0, 0, 0,
    8, 0, 0, 0, 0, 0, 0, 0, 4, 0, 0, 0, 0, 0, 0, 0, 5, 0, 0, 0, 0, 0, 0, 0, 3, 0, 0, 0, 0, 0, 0, 0, 7, 0, 0, 0, 0, 0, 0, 0,
    8, 0, 0, 0, 0, 0, 0, 0, 5, 0, 0, 0, 0, 0, 0, 0, 10, 0, 0, 0, 0, 0, 0, 0, 2, 0, 0, 0, 0, 0, 0, 0, 7, 0, 0, 0, 0, 0, 0, 0,
    8, 0, 0, 0, 0, 0, 0, 0, 6, 0, 0, 0, 0, 0, 0, 0, 7, 0, 0, 0, 0, 0, 0, 0, 0, 0, 0, 0, 0, 0, 0, 0, 4, 0, 0, 0, 0, 0, 0, 0,
    8, 0, 0, 0, 0, 0, 0, 0, 6, 0, 0, 0, 0, 0, 0, 0, 9, 0, 0, 0, 0, 0, 0, 0, 2, 0, 0, 0, 0, 0, 0, 0, 4, 0, 0, 0, 0, 0, 0, 0,
    8, 0, 0, 0, 0, 0, 0, 0, 7, 0, 0, 0, 0, 0, 0, 0, 11, 0, 0, 0, 0, 0, 0, 0, 0, 0, 0, 0, 0, 0, 0, 0, 5, 0, 0, 0, 0, 0, 0, 0,
    8, 0, 0, 0, 0, 0, 0, 0, 7, 0, 0, 0, 0, 0, 0, 0, 8, 0, 0, 0, 0, 0, 0, 0, 4, 0, 0, 0, 0, 0, 0, 0, 5, 0, 0, 0, 0, 0, 0, 0,
    8, 0, 0, 0, 0, 0, 0, 0, 9, 0, 0, 0, 0, 0, 0, 0, 10, 0, 0, 0, 0, 0, 0, 0, 2, 0, 0, 0, 0, 0, 0, 0, 6, 0, 0, 0, 0, 0, 0, 0,
    8, 0, 0, 0, 0, 0, 0, 0, 0, 0, 0, 0, 0, 0, 0, 0, 0, 0, 0, 0, 0, 0, 0, 0, 0, 0, 0, 0, 0, 0, 89, 64, 0, 0, 0, 0, 0, 0, 0, 0,
    0, 0, 0, 0, 0, 0, 0, 0, 0, 0, 0, 0, 0, 0, 0, 0, 0, 0, 0, 0, 0, 0, 0, 0, 0, 0, 0, 0, 0, 0, 89, 64, 0, 0, 0, 0, 0, 0, 89, 64,
    0, 0, 0, 0, 0, 0, 0, 0, 0, 0, 0, 0, 0, 0, 89, 64, 0, 0, 0, 0, 0, 0, 0, 0, 0, 0, 0, 0, 0, 0, 89, 64, 0, 0, 0, 0, 0, 0, 0, 0,
    0, 0, 0, 0, 0, 0, 89, 64, 0, 0, 0, 0, 0, 0, 89, 64, 0, 0, 0, 0, 0, 0, 0, 0, 0, 0, 0, 0, 0, 0, 0, 0, 0, 0, 0, 0, 0, 0, 89, 64,
    0, 0, 0, 0, 0, 0, 89, 64, 0, 0, 0, 0, 0, 0, 89, 64, 0, 0, 0, 0, 0, 0, 89, 64, 0, 0, 0, 0, 0, 0, 89, 64, 0, 0, 0, 0, 0, 0, 0, 0,
    254, 140, 247, 255, 255, 255, 72, 64, 60, 158, 106, 0, 0, 0, 73, 64, 252, 140, 247, 255, 255, 255, 72, 64]

/-- The file util/cube-12.smesh. -/
def cubeFile : List UInt8 := cubeBytes.map UInt8.ofNat

/-- The mesh in it. -/
def cubeMesh : SerialMesh where
  numCells := 12
  numFaces := 30
  numNodes := 9
  cells := [⟨![2, 12, 13, 14], ![4, 6, 7, 8], 1⟩, ⟨![0, 15, 16, 17], ![0, 2, 3, 8], 1⟩, ⟨![1, 16, 18, 19], ![0, 1, 3, 8], 1⟩,
    ⟨![8, 19, 20, 21], ![1, 3, 5, 8], 1⟩, ⟨![9, 21, 22, 23], ![3, 5, 7, 8], 1⟩, ⟨![6, 17, 23, 24], ![2, 3, 7, 8], 1⟩,
    ⟨![10, 15, 25, 26], ![0, 2, 4, 8], 1⟩, ⟨![5, 25, 27, 28], ![0, 4, 5, 8], 1⟩, ⟨![3, 14, 22, 28], ![4, 5, 7, 8], 1⟩,
    ⟨![11, 13, 26, 29], ![2, 4, 6, 8], 1⟩, ⟨![7, 12, 24, 29], ![2, 6, 7, 8], 1⟩, ⟨![4, 18, 20, 27], ![0, 1, 5, 8], 1⟩]
  faces := [⟨![1, invalid], ![0, 2, 3]⟩, ⟨![2, invalid], ![0, 1, 3]⟩, ⟨![0, invalid], ![4, 6, 7]⟩, ⟨![8, invalid], ![4, 5, 7]⟩, ⟨![11, invalid], ![0, 1, 5]⟩,
    ⟨![7, invalid], ![0, 4, 5]⟩, ⟨![5, invalid], ![2, 3, 7]⟩, ⟨![10, invalid], ![2, 6, 7]⟩, ⟨![3, invalid], ![1, 3, 5]⟩, ⟨![4, invalid], ![3, 5, 7]⟩,
    ⟨![6, invalid], ![0, 2, 4]⟩, ⟨![9, invalid], ![2, 4, 6]⟩, ⟨![0, 10], ![6, 7, 8]⟩, ⟨![0, 9], ![4, 6, 8]⟩, ⟨![0, 8], ![4, 7, 8]⟩,
    ⟨![1, 6], ![0, 2, 8]⟩, ⟨![1, 2], ![0, 3, 8]⟩, ⟨![1, 5], ![2, 3, 8]⟩, ⟨![2, 11], ![0, 1, 8]⟩, ⟨![2, 3], ![1, 3, 8]⟩,
    ⟨![3, 11], ![1, 5, 8]⟩, ⟨![3, 4], ![3, 5, 8]⟩, ⟨![4, 8], ![5, 7, 8]⟩, ⟨![4, 5], ![3, 7, 8]⟩, ⟨![5, 10], ![2, 7, 8]⟩,
    ⟨![6, 7], ![0, 4, 8]⟩, ⟨![6, 9], ![2, 4, 8]⟩, ⟨![7, 11], ![0, 5, 8]⟩, ⟨![7, 8], ![4, 5, 8]⟩, ⟨![9, 10], ![2, 6, 8]⟩]
  nodes := [⟨![0, 0, 4636737291354636288]⟩, ⟨![0, 0, 0]⟩,
    ⟨![0, 4636737291354636288, 4636737291354636288]⟩, ⟨![0, 4636737291354636288, 0]⟩,
    ⟨![4636737291354636288, 0, 4636737291354636288]⟩, ⟨![4636737291354636288, 0, 0]⟩,
    ⟨![4636737291354636288, 4636737291354636288, 4636737291354636288]⟩, ⟨![4636737291354636288, 4636737291354636288, 0]⟩,
    ⟨![4632233691726712062, 4632233691734253116, 4632233691726712060]⟩]

/-- Vertices left out by the faces of the cells. -/
def cubeSig : List (Fin 4 → Fin 4) :=
  [![3, 0, 2, 1], ![3, 2, 1, 0], ![3, 1, 2, 0], ![3, 2, 1, 0], ![3, 2, 0, 1], ![3, 2, 0, 1],
    ![3, 2, 1, 0], ![3, 2, 1, 0], ![3, 1, 0, 2], ![3, 0, 2, 1], ![3, 0, 1, 2], ![3, 2, 0, 1]]

/-- Common faces. -/
def cubeAdj : List Cert.Pair :=
  [(0, 0, 10, 0), (0, 1, 8, 1), (0, 2, 9, 0), (1, 0, 5, 2), (1, 1, 2, 1), (1, 2, 6, 2), (2, 0, 3, 2), (2, 1, 1, 1), (2, 2, 11, 2),
    (3, 0, 4, 2), (3, 1, 11, 0), (3, 2, 2, 0), (4, 0, 8, 0), (4, 1, 5, 0), (4, 2, 3, 0), (5, 0, 4, 1), (5, 1, 10, 1), (5, 2, 1, 0),
    (6, 0, 9, 2), (6, 1, 7, 2), (6, 2, 1, 2), (7, 0, 8, 2), (7, 1, 11, 1), (7, 2, 6, 1), (8, 0, 4, 0), (8, 1, 0, 1), (8, 2, 7, 0),
    (9, 0, 0, 2), (9, 1, 10, 2), (9, 2, 6, 0), (10, 0, 0, 0), (10, 1, 5, 1), (10, 2, 9, 1), (11, 0, 3, 1), (11, 1, 7, 1), (11, 2, 2, 2)]

/-- Coordinates of the nodes in the unit 2^-47. -/
def cubeNodes : List Cert.IPt :=
  [![0, 0, 14073748835532800], ![0, 0, 0],
    ![0, 14073748835532800, 14073748835532800], ![0, 14073748835532800, 0],
    ![14073748835532800, 0, 14073748835532800], ![14073748835532800, 0, 0],
    ![14073748835532800, 14073748835532800, 14073748835532800], ![14073748835532800, 14073748835532800, 0],
    ![7036874417212670, 7036874424753724, 7036874417212668]]

/-- Coordinates of the vertices of the cells. -/
def cubeI (c : Nat) (v : Fin 4) : Cert.IPt :=
  match cubeMesh.cells[c]? with
  | some d => cubeNodes.getD (d.nodes v) ![0, 0, 0]
  | none => ![0, 0, 0]

/-- A convex function with the cells as pieces. -/
def cubeH (x : Cert.IPt) : ℤ :=
  100 * ((x 0 - 50 * 2 ^ 47) ^ 2 + (x 1 - 50 * 2 ^ 47) ^ 2 + (x 2 - 50 * 2 ^ 47) ^ 2) + (x 0 + x 1 + x 2 - 150 * 2 ^ 47) ^ 2

/-- The directions of order 2, in the unit 10^-30. -/
def cubeBox (s0 s1 s2 : Bool) : Cert.Box where
  lo := ![if s0 then 577350269189625796763723170752 else -577350269189625796763723170753, if s1 then 577350269189625796763723170752 else -577350269189625796763723170753, if s2 then 577350269189625700000000000000 else -577350269189625700000000000000]
  hi := ![if s0 then 577350269189625796763723170753 else -577350269189625796763723170752, if s1 then 577350269189625796763723170753 else -577350269189625796763723170752, if s2 then 577350269189625700000000000000 else -577350269189625700000000000000]

theorem cube_ok : cubeMesh.OK := by
  refine ⟨rfl, rfl, rfl, by decide, by decide, by decide, ?_, ?_, ?_⟩
  · decide +kernel
  · decide +kernel
  · decide +kernel

theorem cube_bytes : cubeMesh.bytes = cubeFile := by decide +kernel

theorem cube_tets : Tets cubeMesh :=
  Check.tets (sig := fun c => cubeSig.getD c ![0, 1, 2, 3]) ⟨rfl, rfl, rfl, by decide, by decide +kernel, by decide +kernel⟩

theorem cube_adj : Cert.adjOK cubeMesh cubeAdj := Cert.adj_of (by decide +kernel)

theorem cube_normals : Cert.normalsOK cubeMesh cubeI := by decide +kernel

theorem cube_sides : Cert.sidesOK cubeI cubeAdj := by decide +kernel

theorem cube_convex : Cert.convexOK cubeMesh cubeI cubeAdj cubeH := by decide +kernel

theorem cube_cross : ∀ s0 s1 s2, Cert.crossOK cubeI cubeAdj (cubeBox s0 s1 s2) := by decide +kernel

/-! ### Coordinates and directions -/

theorem pow_cancel (x : ℚ) (e k : ℕ) : x * 2 ^ e / 2 ^ (e + k) = x / 2 ^ k := by
  rw [pow_add]
  field_simp

theorem ieee_hundred : ieee 4636737291354636288 = 100 := by
  norm_num [ieee]
  exact (pow_cancel 7036874417766400 1029 46).trans (by norm_num)
theorem ieee_zero : ieee 0 = 0 := by norm_num [ieee]
theorem ieee_c0 : ieee 4632233691726712062 = 7036874417212670 / 2 ^ 47 := by
  norm_num [ieee]
  exact (pow_cancel 7036874417212670 1028 47).trans (by norm_num)
theorem ieee_c1 : ieee 4632233691734253116 = 7036874424753724 / 2 ^ 47 := by
  norm_num [ieee]
  exact (pow_cancel 7036874424753724 1028 47).trans (by norm_num)
theorem ieee_c2 : ieee 4632233691726712060 = 7036874417212668 / 2 ^ 47 := by
  norm_num [ieee]
  exact (pow_cancel 7036874417212668 1028 47).trans (by norm_num)

theorem cube_node : ∀ (i : Nat) (nd : SNode), cubeMesh.nodes[i]? = some nd → ∀ k, ieeeVal (nd.coords k) = (cubeNodes.getD i ![0, 0, 0] k : ℝ) / 2 ^ 47 := by
  intro i nd h k
  have hi : i < 9 := (List.getElem?_eq_some_iff.1 h).1
  unfold ieeeVal
  interval_cases i <;> simp [cubeMesh] at h <;> subst h <;>
    (match k with
      | 0 => simp [ieee_hundred, ieee_zero, ieee_c0, ieee_c1, ieee_c2, cubeNodes] <;> norm_num
      | 1 => simp [ieee_hundred, ieee_zero, ieee_c0, ieee_c1, ieee_c2, cubeNodes] <;> norm_num
      | 2 => simp [ieee_hundred, ieee_zero, ieee_c0, ieee_c1, ieee_c2, cubeNodes] <;> norm_num)

theorem cube_scaled : Cert.Scaled ieeeVal cubeMesh cubeI (2 ^ 47) where
  pos := by positivity
  pts := by
    intro c hc v k
    obtain ⟨d, hd⟩ : ∃ d, cubeMesh.cells[c]? = some d := ⟨_, List.getElem?_eq_getElem (by exact hc)⟩
    have hn := cube_tets.toSound.cellNode c d hd v
    obtain ⟨nd, hnd⟩ : ∃ nd, cubeMesh.nodes[d.nodes v]? = some nd := ⟨_, List.getElem?_eq_getElem (by exact hn)⟩
    unfold pts cubeI
    rw [hd]
    simp only [Option.bind_some]
    rw [hnd]
    exact cube_node _ _ hnd k

theorem cube_fits : Fits ieeeVal cubeMesh := Cert.fits cube_scaled cube_tets cube_adj cube_normals cube_sides

theorem cube_centre : ∀ c < cubeMesh.numCells, ∀ v, (cubeI c v 0 - 50 * 2 ^ 47) ^ 2 + (cubeI c v 1 - 50 * 2 ^ 47) ^ 2 +
    (cubeI c v 2 - 50 * 2 ^ 47) ^ 2 ≠ 0 := by decide +kernel

variable {deck : Deck} {p : Problem ℝ} {sS : Nat → ℝ}

theorem cube_sensible {N : Nat} (hq : quadrature N = some deck.dirs) (h1 : 0 ≤ deck.sigmaT1) (h2 : 0 ≤ deck.sigmaT2) :
    Sensible ieeeVal deck cubeMesh := by
  refine quadrature_sensible hq (by decide) ?_ h1 h2
  intro c hc v
  unfold radius
  simp only [cube_scaled.pts c hc]
  refine (Real.sqrt_pos.2 ?_).ne'
  have h := cube_centre c hc v
  have h : ((((cubeI c v 0 - 50 * 2 ^ 47) ^ 2 + (cubeI c v 1 - 50 * 2 ^ 47) ^ 2 + (cubeI c v 2 - 50 * 2 ^ 47) ^ 2 : ℤ)) : ℝ) ≠ 0 := by
    exact_mod_cast h
  simp only [Int.cast_add, Int.cast_mul, Int.cast_pow, Int.cast_sub, Int.cast_ofNat] at h
  have e : ((cubeI c v 0 : ℝ) / 2 ^ 47 - 50) ^ 2 + ((cubeI c v 1 : ℝ) / 2 ^ 47 - 50) ^ 2 + ((cubeI c v 2 : ℝ) / 2 ^ 47 - 50) ^ 2 =
      (((cubeI c v 0 : ℝ) - 50 * 2 ^ 47) ^ 2 + ((cubeI c v 1 : ℝ) - 50 * 2 ^ 47) ^ 2 + ((cubeI c v 2 : ℝ) - 50 * 2 ^ 47) ^ 2) / (2 ^ 47) ^ 2 := by
    field_simp
  rw [e]
  exact div_pos (lt_of_le_of_ne (by positivity) (Ne.symm h)) (by positivity)

/-- C76: the cells of the file are those of a convex function. -/
theorem cube_regular : Regular ieeeVal cubeMesh := by
  refine Cert.regular cube_scaled cube_tets cube_adj cube_convex (q := fun x =>
    (100 * ((x 0 - 50) ^ 2 + (x 1 - 50) ^ 2 + (x 2 - 50) ^ 2) + (x 0 + x 1 + x 2 - 150) ^ 2) * (2 ^ 47) ^ 2) ?_
  intro c hc v
  simp only [cube_scaled.pts c hc]
  unfold cubeH
  simp only [Int.cast_add, Int.cast_mul, Int.cast_pow, Int.cast_sub, Int.cast_ofNat]
  field_simp

/-- C76: no direction of any quadrature has a cycle on it. -/
theorem cube_acyclic (Ds : Describes ieeeVal deck cubeMesh p sS) : p.Acyclic cubeMesh :=
  regular_acyclic cube_tets cube_fits cube_regular Ds

theorem two_angles (k : Nat) (hk : k < 4) : ∃ e0 e1 : Bool,
    Real.cos ((2 * Real.pi) / (2 * ((2 : ℕ) : ℝ)) * ((k : ℝ) + 1 / 2)) = (if e0 then √2 / 2 else -(√2 / 2)) ∧
    Real.sin ((2 * Real.pi) / (2 * ((2 : ℕ) : ℝ)) * ((k : ℝ) + 1 / 2)) = (if e1 then √2 / 2 else -(√2 / 2)) := by
  interval_cases k
  · have e : (2 * Real.pi) / (2 * ((2 : ℕ) : ℝ)) * (((0 : ℕ) : ℝ) + 1 / 2) = Real.pi / 4 := by push_cast; ring
    rw [e]
    exact ⟨true, true, by simp, by simp⟩
  · have e : (2 * Real.pi) / (2 * ((2 : ℕ) : ℝ)) * (((1 : ℕ) : ℝ) + 1 / 2) = Real.pi / 4 + Real.pi / 2 := by push_cast; ring
    rw [e, Real.cos_add_pi_div_two, Real.sin_add_pi_div_two]
    exact ⟨false, true, by simp, by simp⟩
  · have e : (2 * Real.pi) / (2 * ((2 : ℕ) : ℝ)) * (((2 : ℕ) : ℝ) + 1 / 2) = Real.pi / 4 + Real.pi := by push_cast; ring
    rw [e, Real.cos_add_pi, Real.sin_add_pi]
    exact ⟨false, false, by simp, by simp⟩
  · have e : (2 * Real.pi) / (2 * ((2 : ℕ) : ℝ)) * (((3 : ℕ) : ℝ) + 1 / 2) = Real.pi / 4 + Real.pi + Real.pi / 2 := by push_cast; ring
    rw [e, Real.cos_add_pi_div_two, Real.sin_add_pi_div_two, Real.cos_add_pi, Real.sin_add_pi]
    exact ⟨true, false, by simp, by simp⟩

theorem two_side {g : ℝ} (hg : g * g = (5773502691896257 / 10 ^ 16) ^ 2) :
    (577350269189625796763723170752 : ℝ) ≤ √(1 - g * g) * (√2 / 2) * 10 ^ 30 ∧
    √(1 - g * g) * (√2 / 2) * 10 ^ 30 ≤ 577350269189625796763723170753 := by
  have h2 : √2 ^ 2 = 2 := Real.sq_sqrt (by norm_num)
  have hs : √(1 - g * g) ^ 2 = 1 - g * g := Real.sq_sqrt (by rw [hg]; norm_num)
  have e : (√(1 - g * g) * (√2 / 2) * 10 ^ 30) ^ 2 = (1 - (5773502691896257 / 10 ^ 16) ^ 2) / 2 * 10 ^ 60 := by
    rw [← hg]
    have : (√(1 - g * g) * (√2 / 2) * 10 ^ 30) ^ 2 = √(1 - g * g) ^ 2 * √2 ^ 2 / 4 * 10 ^ 60 := by ring
    rw [this, h2, hs]
    ring
  have hn : 0 ≤ √(1 - g * g) * (√2 / 2) * 10 ^ 30 := by positivity
  constructor
  · refine le_of_sq_le_sq ?_ hn
    rw [e]; norm_num
  · refine le_of_sq_le_sq ?_ (by norm_num)
    rw [e]; norm_num

theorem cube_dirs {Q : List Verif.Quadrature.Dir} (hq : quadrature 2 = some Q) {d : Verif.Quadrature.Dir} (hd : d ∈ Q) :
    ∃ s0 s1 s2, Cert.InBox d (cubeBox s0 s1 s2) (10 ^ 30) := by
  rw [Verif.Quadrature.quadrature_eq (N := 2) rfl, Option.some.injEq] at hq
  subst hq
  simp only [List.mem_flatMap, List.mem_map, List.mem_range] at hd
  obtain ⟨i, hi, k, hk, rfl⟩ := hd
  obtain ⟨e0, e1, hc, hsn⟩ := two_angles k hk
  have hg : ∃ e2 : Bool, Verif.Quadrature.dec (Verif.Quadrature.s_n2.getD i 0) =
      (if e2 then 5773502691896257 / 10 ^ 16 else -(5773502691896257 / 10 ^ 16) : ℝ) := by
    interval_cases i
    · exact ⟨false, by norm_num [Verif.Quadrature.dec, Verif.Quadrature.s_n2]⟩
    · exact ⟨true, by norm_num [Verif.Quadrature.dec, Verif.Quadrature.s_n2]⟩
  obtain ⟨e2, hg⟩ := hg
  rw [hg]
  generalize hgd : (if e2 then 5773502691896257 / 10 ^ 16 else -(5773502691896257 / 10 ^ 16) : ℝ) = g
  have hgg : g * g = (5773502691896257 / 10 ^ 16) ^ 2 := by
    subst hgd; cases e2 <;> norm_num
  obtain ⟨q1, q2⟩ := two_side hgg
  refine ⟨e0, e1, e2, by positivity, ?_, ?_, ?_, ?_, ?_, ?_⟩
  · show _ ≤ √(1 - g * g) * Real.cos _ * 10 ^ 30
    rw [hc]; cases e0 <;> simp [cubeBox] <;> linarith
  · show √(1 - g * g) * Real.cos _ * 10 ^ 30 ≤ _
    rw [hc]; cases e0 <;> simp [cubeBox] <;> linarith
  · show _ ≤ √(1 - g * g) * Real.sin _ * 10 ^ 30
    rw [hsn]; cases e1 <;> simp [cubeBox] <;> linarith
  · show √(1 - g * g) * Real.sin _ * 10 ^ 30 ≤ _
    rw [hsn]; cases e1 <;> simp [cubeBox] <;> linarith
  · show _ ≤ g * 10 ^ 30
    subst hgd; cases e2 <;> simp [cubeBox] <;> norm_num
  · show g * 10 ^ 30 ≤ _
    subst hgd; cases e2 <;> simp [cubeBox] <;> norm_num

/-- C76: no direction of the quadrature of order 2 is parallel to a common face. -/
theorem cube_transversal (hq : quadrature 2 = some deck.dirs) (Ds : Describes ieeeVal deck cubeMesh p sS) :
    p.Transversal cubeMesh :=
  Cert.transversal cube_scaled cube_tets cube_adj cube_normals Ds fun d hd => by
    obtain ⟨s0, s1, s2, h⟩ := cube_dirs hq hd
    exact ⟨_, _, h, cube_cross s0 s1 s2⟩

/-! ### Runs -/

theorem cube_read : readSerial cubeFile = some cubeMesh := by
  obtain ⟨f, h1, h2⟩ := serial_roundtrip cube_ok
  rw [cube_ok.write, Option.some.injEq] at h1
  subst h1
  rw [← cube_bytes]
  simpa using h2 []

theorem cube_small (hq : quadrature 2 = some deck.dirs) : Small deck cubeMesh := by
  have := Verif.Quadrature.count hq
  exact ⟨by decide, by decide, by decide, by rw [this]; decide⟩

/-- C76: for the file util/cube-12.smesh and the quadrature of order 2, the file made by any of the two
partitioners opens on all ranks, and every run with the two-sided sweep can be completed. -/
theorem cube_runs (hq : quadrature 2 = some deck.dirs) (h1 : 0 ≤ deck.sigmaT1) (h2 : 0 ≤ deck.sigmaT2) {n : Nat} {g : List UInt8}
    (hP : Partitioned ieeeVal cubeFile n g) (hn : n ≤ 2 ^ 30) :
    (∃ T D, Opened ieeeVal deck g n T D) ∧
    ∀ T D, Opened ieeeVal deck g n T D → ∀ M : Mode, M.n = n → 0 < M.threads → 0 < M.batch → M.proto = .tycho →
      ∃ psi, Swept M deck T D psi := by
  have hs := cube_sensible hq h1 h2
  obtain ⟨p, sS, Ds⟩ := describes_exists cube_tets cube_fits hs
  refine ⟨(opened_ready (M := oneRank) cube_read cube_tets cube_fits hs (cube_small hq) hP hn (by decide)).1, ?_⟩
  intro T D hO M hM hth hb hproto
  obtain ⟨-, pv, P, h⟩ := opened_ready (M := M) cube_read cube_tets cube_fits hs (cube_small hq) hP hn hth
  subst hM
  obtain ⟨psi, hp⟩ := program_finishes (h T D hO) cube_fits hs Ds (cube_acyclic Ds) (cube_transversal hq Ds) hb hproto
  exact ⟨psi, hp⟩

/-- C76: all completed runs write the same file. -/
theorem cube_output (hq : quadrature 2 = some deck.dirs) (h1 : 0 ≤ deck.sigmaT1) (h2 : 0 ≤ deck.sigmaT2) {n n' : Nat} {g g' : List UInt8}
    (hP : Partitioned ieeeVal cubeFile n g) (hP' : Partitioned ieeeVal cubeFile n' g') (hn : n ≤ 2 ^ 30) (hn' : n' ≤ 2 ^ 30)
    {M M' : Mode} (hM : M.n = n) (hM' : M'.n = n') (hth : 0 < M.threads) (hth' : 0 < M'.threads)
    {T T' : Nat → Mesh} {D D' : Nat → RankData} (hO : Opened ieeeVal deck g n T D) (hO' : Opened ieeeVal deck g' n' T' D')
    {psi psi' : Nat → Psi ℝ} (hp : Swept M deck T D psi) (hp' : Swept M' deck T' D' psi')
    (hng : 0 < deck.nGroups) (hg : deck.nGroups < 2 ^ 26) {bits : ℝ → Nat} {A A' : Nat → Verif.Storage.PsiData Nat}
    (hA : Verif.PsiFile.Stored bits n T deck.nGroups 8 psi A) (hA' : Verif.PsiFile.Stored bits n' T' deck.nGroups 8 psi' A')
    {f f' : Verif.PsiFile.File} (hw : Verif.PsiFile.Written n A (Verif.PsiFile.lgOf T) f)
    (hw' : Verif.PsiFile.Written n' A' (Verif.PsiFile.lgOf T') f') : f = f' := by
  have hlen : deck.dirs.length = 8 := by
    have := Verif.Quadrature.count hq
    omega
  have hnc : cubeMesh.numCells = 12 := rfl
  rw [← hlen] at hA hA'
  exact files_output cube_read cube_tets cube_fits (cube_sensible hq h1 h2) (cube_small hq) hP hP' hn hn' hth hth' hM hM' hO hO' hp hp'
    hng (by omega) (by rw [hlen]; omega) (by rw [hlen, hnc]; omega) hA hA' hw hw'

/-- The hypotheses of `cube_runs` and `cube_output` hold, for instance with one group and cross sections 1 and 1/2: the columns
partitioner makes files for 2 x 3 ranks, and runs on them can be completed. -/
theorem cube_example : ∃ (deck : Deck) (g : List UInt8) (T : Nat → Mesh) (D : Nat → RankData) (psi : Nat → Psi ℝ),
    quadrature 2 = some deck.dirs ∧ 0 ≤ deck.sigmaT1 ∧ 0 ≤ deck.sigmaT2 ∧ deck.nGroups = 1 ∧
    Partitioned ieeeVal cubeFile 6 g ∧ Opened ieeeVal deck g 6 T D ∧ Swept { twoRanks with n := 6 } deck T D psi := by
  obtain ⟨Q, hQ⟩ := (Verif.Quadrature.orders 2).2 (by decide)
  let deck : Deck := ⟨1, Q, 1, 1 / 2, 1, 1 / 2⟩
  obtain ⟨sX, hX⟩ := sort_exists (Verif.Partition.Centroid.x (K := ℝ))
  obtain ⟨sY, hY⟩ := sort_exists (Verif.Partition.Centroid.y (K := ℝ))
  obtain ⟨g, hg⟩ := (partition_succeeds (val := ieeeVal) cube_read cube_tets (cube_small (deck := deck) hQ)).1 sX sY 2 3 hX hY
    (by decide) (by decide) (by decide)
  have hP : Partitioned ieeeVal cubeFile 6 g := .columns (nX := 2) (nY := 3) hX hY (by decide) (by decide) hg
  obtain ⟨⟨T, D, hO⟩, h⟩ := cube_runs (deck := deck) hQ (by norm_num [deck]) (by norm_num [deck]) hP (by decide)
  obtain ⟨psi, hp⟩ := h T D hO { twoRanks with n := 6 } rfl (show 0 < 3 by decide) (show 0 < 5 by decide) rfl
  exact ⟨deck, g, T, D, psi, hQ, by norm_num [deck], by norm_num [deck], rfl, hP, hO, hp⟩

end Verif.Program
