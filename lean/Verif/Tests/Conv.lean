import Verif.Model.Pipeline
import Verif.Props.ConvChain
/-!
# tests/patches/test_conv.py, evaluated in the model

Tests, not proofs. The modules are those of `test_modules` (test_conv.py:11-31), the batches are made as in tests/conftest.py:46-70 from three short sequences; the last piece
of a sequence may be shorter than the others, as there. The frames are integers and the kernels are the digits read as a number, so that every frame counts.
-/

namespace DS.Pipe
open Meta Conv Coll

/-- A kernel for which the position of every frame matters. -/
def digits (l : List Int) : Int := l.foldl (fun acc t => 10 * acc + t) 0

/-- `test_modules`, tests/patches/test_conv.py:11-31: kernel size, dilation 1, stride, padding. -/
def testModules : List (List (Layer Int)) :=
  [[.conv ⟨1, 1, 1, 0⟩ digits], [.conv ⟨1, 1, 1, 1⟩ digits], [.conv ⟨3, 1, 1, 0⟩ digits], [.conv ⟨3, 1, 1, 1⟩ digits], [.conv ⟨4, 1, 1, 0⟩ digits], [.conv ⟨4, 1, 1, 2⟩ digits],
    [.conv ⟨5, 1, 1, 0⟩ digits], [.conv ⟨5, 1, 1, 2⟩ digits], [.conv ⟨5, 1, 2, 2⟩ digits],
    [.conv ⟨3, 1, 1, 1⟩ digits, .conv ⟨5, 1, 1, 2⟩ digits], [.conv ⟨3, 1, 2, 1⟩ digits, .conv ⟨5, 1, 2, 2⟩ digits]]

def testIds : List String := ["0", "1", "2"]
def testWaves : List (List Int) := [[3, 1, 4, 1, 5, 9, 2, 6, 5, 3, 5, 8, 9, 7, 9, 3, 2, 3], [2, 7, 1, 8, 2, 8, 1, 8, 2, 8, 4, 5], [1, 4, 1, 4, 2, 1, 3, 5, 6, 2, 3, 7, 3, 1, 9]]
def testSizes : List (List Int) := [[8, 8, 2], [12], [7, 8]]
def testFlips : List (List Bool) := [[true, false, true], [false, false, false], [true, true, false], [true, true, true]]

/-- `test_equivalence`, tests/patches/test_conv.py:45-59: for every module, the collected outputs of the stream are the offline outputs. -/
example : ∀ ls ∈ testModules, ((program ls testIds testWaves testSizes testFlips).map fun s => testIds.map fun i => (s.entries i).map (·.frames)) =
    .ok (testWaves.map fun w => some (offlineChain ls w)) := by decide +kernel

/-- Nothing is left over, and there are three batches (the second round is empty). -/
example : ((batches testIds testWaves testSizes testFlips).map fun b => (b.1.map fun x => (x.md.ids, x.md.lengths), b.2.map (·.length))) =
    .ok ([(["0", "2"], [8, 7]), (["0", "1"], [8, 12]), (["0", "2"], [2, 8])], [0, 0, 0]) := by decide +kernel

end DS.Pipe
