import Verif.Model.Take
import Verif.Model.MaskIndex
/-!
# The assertions of tests/test_tensor.py, evaluated in the model

Tests, not proofs: they check the model against what the authors of the code expect of it. Every assertion of the classes in
tests/test_tensor.py:293-1344 about values, names, shapes, metadata and exceptions is one `example`; the expected data were computed with plain nested lists.
`scatter_reduce` with its four reductions differs from `scatter_add` only in what torch computes.
-/

namespace DS.Tn
open Meta

/-- `stream_tensor_bfl()`, tests/test_tensor.py:41-44 with 22-32. -/
def X : STen Nat :=
  ⟨⟨[3, 2, 3], [some "B", some "F", some "L"], fun ix => 1 + 6 * ix.getD 0 0 + 3 * ix.getD 1 0 + ix.getD 2 0⟩,
    ⟨["first", "middle", "last"], [true, false, false], [false, false, true], [3, 3, 2], none⟩⟩
/-- `stream_tensor_lbf()`, tests/test_tensor.py:47-51. -/
def XLBF : STen Nat := ⟨⟨[3, 3, 2], [some "L", some "B", some "F"], fun ix => X.t.val [ix.getD 1 0, ix.getD 2 0, ix.getD 0 0]⟩, X.md⟩
/-- `stream_tensor_blf()`, tests/test_tensor.py:54-58 (with the names the test gives it). -/
def XBLF : STen Nat := ⟨⟨[3, 3, 2], [some "L", some "B", some "F"], fun ix => X.t.val [ix.getD 0 0, ix.getD 2 0, ix.getD 1 0]⟩, X.md⟩
/-- `stream_tensor_bfld()`, tests/test_tensor.py:61-65. -/
def XBFDL : STen Nat := ⟨⟨[3, 2, 2, 3], [some "B", some "F", some "D", some "L"], fun ix => X.t.val [ix.getD 0 0, ix.getD 1 0, ix.getD 3 0]⟩, X.md⟩
/-- The sum over the features, tests/test_tensor.py:1321-1325. -/
def XSum : STen Nat := ⟨⟨[3, 1, 3], [some "B", some "F", some "L"], fun ix => X.t.val [ix.getD 0 0, 0, ix.getD 2 0] + X.t.val [ix.getD 0 0, 1, ix.getD 2 0]⟩, X.md⟩
/-- `src`, tests/test_tensor.py:1173. -/
def X2 : STen Nat := ⟨{ X.t with val := fun ix => 2 * X.t.val ix }, X.md⟩

/-- Index tensors. -/
def ints (is : List Int) : Ten Int := ⟨[is.length], [none], fun ix => is.getD (ix.getD 0 0) 0⟩
def ints2 (rows : List (List Int)) : Ten Int := ⟨[rows.length, (rows.headD []).length], [none, none], fun ix => (rows.getD (ix.getD 0 0) []).getD (ix.getD 1 0) 0⟩
def mask2 (rows : List (List Bool)) : Ten Bool := ⟨[rows.length, (rows.headD []).length], [none, none], fun ix => (rows.getD (ix.getD 0 0) []).getD (ix.getD 1 0) false⟩
def mask3 (ps : List (List (List Bool))) : Ten Bool :=
  ⟨[ps.length, (ps.headD []).length, ((ps.headD []).headD []).length], [none, none, none], fun ix => ((ps.getD (ix.getD 0 0) []).getD (ix.getD 1 0) []).getD (ix.getD 2 0) false⟩
def nats3 (ps : List (List (List Nat))) : Ten Nat :=
  ⟨[ps.length, (ps.headD []).length, ((ps.headD []).headD []).length], [none, none, none], fun ix => ((ps.getD (ix.getD 0 0) []).getD (ix.getD 1 0) []).getD (ix.getD 2 0) 0⟩
/-- tests/test_tensor.py:334-349 and 351-362. -/
def fullIndex : Ten Nat := nats3 [[[1, 0, 1], [0, 1, 1]], [[0, 1, 1], [1, 0, 1]], [[1, 0, 1], [0, 1, 1]]]
def truncatedIndex : Ten Nat := nats3 [[[1, 0], [0, 1]], [[0, 1], [1, 0]]]
/-- The entries of a tensor of shape (3, 2, 3). -/
def entries (vs : List Nat) (ix : List Nat) : Nat := vs.getD (6 * ix.getD 0 0 + 3 * ix.getD 1 0 + ix.getD 2 0) 0
/-- `:` -/
def all : Ix := .slice ⟨none, none, none⟩

/-- Names, shape, entries in row-major order and metadata of a result. -/
def shown (r : Py (STen Nat)) : Py (List (Option String) × List Nat × List Nat × Meta) := r.map fun y => (y.t.names, y.t.shape, (allIx y.t.shape).map y.t.val, y.md)
def unstream (r : Py (Ten Nat)) : Py (List (Option String) × List Nat × List Nat) := r.map fun t => (t.names, t.shape, (allIx t.shape).map t.val)
/-- The same for results that must be StreamTensors, or must not be. -/
def streamed (r : Py (Opd Nat)) : Py (List (Option String) × List Nat × List Nat × Meta) :=
  shown (r.bind fun o => match o with
    | .stream y => .ok y
    | .plain _ => .error .assertionError)
def plainly (r : Py (Opd Nat)) : Py (List (Option String) × List Nat × List Nat) :=
  unstream (r.bind fun o => match o with
    | .plain t => .ok t
    | .stream _ => .error .assertionError)

-- tests/test_tensor.py:294-310
example : shown (narrow 0 X 0 1 2) = .ok ([some "B", some "F", some "L"], [2, 2, 3], [7, 8, 9, 10, 11, 12, 13, 14, 15, 16, 17, 18], ⟨["middle", "last"], [false, false], [false, true], [3, 2], none⟩) := by rfl
-- 312-320
example : shown (narrow 0 X 1 1 1) = .ok ([some "B", some "F", some "L"], [3, 1, 3], [4, 5, 6, 10, 11, 12, 16, 17, 18], ⟨["first", "middle", "last"], [true, false, false], [false, false, true], [3, 3, 2], none⟩) := by rfl
-- 322-330
example : shown (narrow 0 X 2 1 2) = .ok ([some "B", some "F", some "L"], [3, 2, 2], [2, 3, 5, 6, 8, 9, 11, 12, 14, 15, 17, 18], ⟨["first", "middle", "last"], [false, false, false], [false, false, true], [2, 2, 1], none⟩) := by rfl
-- 364-367
example : shown (gather 0 X 0 fullIndex) = .error .indexError := by rfl
-- 369-377
example : shown (gather 0 X 1 fullIndex) = .ok ([some "B", some "F", some "L"], [3, 2, 3], [4, 2, 6, 1, 5, 6, 7, 11, 12, 10, 8, 12, 16, 14, 18, 13, 17, 18], ⟨["first", "middle", "last"], [true, false, false], [false, false, true], [3, 3, 2], none⟩) := by rfl
-- 379-387
example : shown (gather 0 X 1 truncatedIndex) = .ok ([some "B", some "F", some "L"], [2, 2, 2], [4, 2, 1, 5, 7, 11, 10, 8], ⟨["first", "middle"], [true, false], [false, false], [2, 2], none⟩) := by rfl
-- 389-391
example : shown (gather 0 X 2 fullIndex) = .error .indexError := by rfl
-- 395-398
example : shown (takeAlongDim 0 X 0 fullIndex) = .error .indexError := by rfl
-- 400-410
example : shown (takeAlongDim 0 X 1 fullIndex) = .ok ([some "B", some "F", some "L"], [3, 2, 3], [4, 2, 6, 1, 5, 6, 7, 11, 12, 10, 8, 12, 16, 14, 18, 13, 17, 18], ⟨["first", "middle", "last"], [true, false, false], [false, false, true], [3, 3, 2], none⟩) := by rfl
-- 412-414
example : shown (takeAlongDim 0 X 1 truncatedIndex) = .error .runtimeError := by rfl
-- 416-418
example : shown (takeAlongDim 0 X 2 fullIndex) = .error .indexError := by rfl
-- 422-431
example : shown (select 0 X 0 1) = .ok ([some "F", some "L"], [2, 3], [7, 8, 9, 10, 11, 12], ⟨["middle"], [false], [false], [3], none⟩) := by rfl
-- 433-441
example : shown (select 0 X 1 1) = .ok ([some "B", some "L"], [3, 3], [4, 5, 6, 10, 11, 12, 16, 17, 18], ⟨["first", "middle", "last"], [true, false, false], [false, false, true], [3, 3, 2], none⟩) := by rfl
-- 443-451
example : shown (select 0 X 2 1) = .ok ([some "B", some "F"], [3, 2], [2, 5, 8, 11, 14, 17], ⟨["first", "middle", "last"], [false, false, false], [false, false, true], [1, 1, 1], none⟩) := by rfl
-- 455-465
example : shown (take 0 X (.plain (ints [0, 1, 2, 3, 4, 5]))) = .ok ([some "F_L"], [6], [1, 2, 3, 4, 5, 6], ⟨["first"], [true], [false], [3], none⟩) := by rfl
-- 467-476
example : shown (take 0 X (.plain (ints [1, 2, 4, 5]))) = .ok ([some "F_L"], [4], [2, 3, 5, 6], ⟨["first"], [false], [false], [2], none⟩) := by rfl
-- 478-488
example : shown (take 0 X (.plain (ints [0, 1, 2, 6, 7, 8, 12, 13, 14]))) = .ok ([some "B_F_L"], [9], [1, 2, 3, 7, 8, 9, 13, 14, 15], ⟨["first", "middle", "last"], [true, false, false], [false, false, true], [3, 3, 2], none⟩) := by rfl
-- 490-500
example : shown (take 0 X (.plain (ints [0, 3, 6, 9, 12, 15]))) = .ok ([some "B_F"], [6], [1, 4, 7, 10, 13, 16], ⟨["first", "middle", "last"], [true, false, false], [false, false, false], [1, 1, 1], none⟩) := by rfl
-- 502-511
example : shown (take 0 X (.plain (ints [2, 5, 8, 11, 14, 17]))) = .ok ([some "B_F"], [6], [3, 6, 9, 12, 15, 18], ⟨["first", "middle", "last"], [false, false, false], [false, false, false], [1, 1, 0], none⟩) := by rfl
-- 513-523
example : shown (take 0 X (.plain (ints [0, 2, 4, 6, 8, 10, 12, 14, 16]))) = .ok ([some "B_F_L"], [9], [1, 3, 5, 7, 9, 11, 13, 15, 17], ⟨["first", "middle", "last"], [true, false, false], [false, false, true], [3, 3, 2], none⟩) := by rfl
-- 527-539
example : shown (indexSelect 0 X 0 (.vec [0, 2])) = .ok ([some "B", some "F", some "L"], [2, 2, 3], [1, 2, 3, 4, 5, 6, 13, 14, 15, 16, 17, 18], ⟨["first", "last"], [true, false], [false, true], [3, 2], none⟩) := by rfl
-- 541-550
example : shown (indexSelect 0 X 1 (.vec [0])) = .ok ([some "B", some "F", some "L"], [3, 1, 3], [1, 2, 3, 7, 8, 9, 13, 14, 15], ⟨["first", "middle", "last"], [true, false, false], [false, false, true], [3, 3, 2], none⟩) := by rfl
-- 552-564
example : shown (indexSelect 0 X 2 (.vec [0, 2])) = .ok ([some "B", some "F", some "L"], [3, 2, 2], [1, 3, 4, 6, 7, 9, 10, 12, 13, 15, 16, 18], ⟨["first", "middle", "last"], [true, false, false], [false, false, true], [2, 2, 1], none⟩) := by rfl
-- 566-573
example : shown (indexSelect 0 X 2 (.vec [2, 0])) = .error .indexError := by rfl
-- 577-583, 585-591, 593-599
example : unstream (maskedSelect X (.plain ⟨[3, 1, 1], [none, none, none], fun ix => [true, false, true].getD (ix.getD 0 0) false⟩)) = .ok ([none], [12], [1, 2, 3, 4, 5, 6, 13, 14, 15, 16, 17, 18]) := by rfl
example : unstream (maskedSelect X (.plain ⟨[1, 2, 1], [none, none, none], fun ix => [true, false].getD (ix.getD 1 0) false⟩)) = .ok ([none], [9], [1, 2, 3, 7, 8, 9, 13, 14, 15]) := by rfl
example : unstream (maskedSelect X (.plain ⟨[1, 1, 3], [none, none, none], fun ix => [false, false, true].getD (ix.getD 2 0) false⟩)) = .ok ([none], [6], [3, 6, 9, 12, 15, 18]) := by rfl
-- 606-615
example : shown (getitem 0 X (.tup [all, .int 0, all])) = .ok ([some "B", some "L"], [3, 3], [1, 2, 3, 7, 8, 9, 13, 14, 15], ⟨["first", "middle", "last"], [true, false, false], [false, false, true], [3, 3, 2], none⟩) := by rfl
-- 617-627
example : shown (getitem 0 X (.bare (.int 0))) = .ok ([some "F", some "L"], [2, 3], [1, 2, 3, 4, 5, 6], ⟨["first"], [true], [false], [3], none⟩) := by rfl
-- 629-638
example : shown (getitem 0 X (.bare (.slice ⟨some 1, none, none⟩))) = .ok ([some "B", some "F", some "L"], [2, 2, 3], [7, 8, 9, 10, 11, 12, 13, 14, 15, 16, 17, 18], ⟨["middle", "last"], [false, false], [false, true], [3, 2], none⟩) := by rfl
-- 641-648
example : shown (getitem 0 X (.tup [.int 0])) = .ok ([some "F", some "L"], [2, 3], [1, 2, 3, 4, 5, 6], ⟨["first"], [true], [false], [3], none⟩) := by rfl
-- 650-657
example : shown (getitem 0 X (.tup [.int 0, .int 1])) = .ok ([some "L"], [3], [4, 5, 6], ⟨["first"], [true], [false], [3], none⟩) := by rfl
-- 659-666
example : shown (getitem 0 X (.tup [.int 0, .int 1, .int 2])) = .ok ([], [], [6], ⟨["first"], [false], [false], [1], none⟩) := by rfl
-- 668-675
example : shown (getitem 0 X (.tup [.int 0, .int 1, .int 0])) = .ok ([], [], [4], ⟨["first"], [true], [false], [1], none⟩) := by rfl
-- 679-686
example : shown (getitem 0 X (.bare (.list [1]))) = .ok ([some "B", some "F", some "L"], [1, 2, 3], [7, 8, 9, 10, 11, 12], ⟨["middle"], [false], [false], [3], none⟩) := by rfl
-- 688-695
example : shown (getitem 0 X (.bare (.list [0, 2]))) = .ok ([some "B", some "F", some "L"], [2, 2, 3], [1, 2, 3, 4, 5, 6, 13, 14, 15, 16, 17, 18], ⟨["first", "last"], [true, false], [false, true], [3, 2], none⟩) := by rfl
-- 697-706
example : shown (getitem 0 X (.bare (.mask [false, true, true]))) = .ok ([some "B", some "F", some "L"], [2, 2, 3], [7, 8, 9, 10, 11, 12, 13, 14, 15, 16, 17, 18], ⟨["middle", "last"], [false, false], [false, true], [3, 2], none⟩) := by rfl
-- 708-717
example : shown (getitem 0 X (.bare (.ints [1, 2]))) = .ok ([some "B", some "F", some "L"], [2, 2, 3], [7, 8, 9, 10, 11, 12, 13, 14, 15, 16, 17, 18], ⟨["middle", "last"], [false, false], [false, true], [3, 2], none⟩) := by rfl
-- 724-731
example : shown (getitem 0 X (.tup [all, all, .int 0])) = .ok ([some "B", some "F"], [3, 2], [1, 4, 7, 10, 13, 16], ⟨["first", "middle", "last"], [true, false, false], [false, false, false], [1, 1, 1], none⟩) := by rfl
-- 733-740
example : shown (getitem 0 X (.tup [all, all, .int 1])) = .ok ([some "B", some "F"], [3, 2], [2, 5, 8, 11, 14, 17], ⟨["first", "middle", "last"], [false, false, false], [false, false, true], [1, 1, 1], none⟩) := by rfl
-- 742-749
example : shown (getitem 0 X (.tup [all, all, .int (-1)])) = .ok ([some "B", some "F"], [3, 2], [3, 6, 9, 12, 15, 18], ⟨["first", "middle", "last"], [false, false, false], [false, false, true], [1, 1, 0], none⟩) := by rfl
-- 758-765
example : shown (getitem 0 X (.tup [all, all, .slice ⟨some 1, none, none⟩])) = .ok ([some "B", some "F", some "L"], [3, 2, 2], [2, 3, 5, 6, 8, 9, 11, 12, 14, 15, 17, 18], ⟨["first", "middle", "last"], [false, false, false], [false, false, true], [2, 2, 1], none⟩) := by rfl
-- 767-774
example : shown (getitem 0 X (.tup [all, all, .slice ⟨none, some (-1), none⟩])) = .ok ([some "B", some "F", some "L"], [3, 2, 2], [1, 2, 4, 5, 7, 8, 10, 11, 13, 14, 16, 17], ⟨["first", "middle", "last"], [true, false, false], [false, false, true], [2, 2, 2], none⟩) := by rfl
-- 776-783
example : shown (getitem 0 X (.tup [all, all, .slice ⟨some 1, some (-1), none⟩])) = .ok ([some "B", some "F", some "L"], [3, 2, 1], [2, 5, 8, 11, 14, 17], ⟨["first", "middle", "last"], [false, false, false], [false, false, true], [1, 1, 1], none⟩) := by rfl
-- 785-792
example : shown (getitem 0 X (.tup [all, all, .slice ⟨none, some (-2), none⟩])) = .ok ([some "B", some "F", some "L"], [3, 2, 1], [1, 4, 7, 10, 13, 16], ⟨["first", "middle", "last"], [true, false, false], [false, false, false], [1, 1, 1], none⟩) := by rfl
-- 794-801
example : shown (getitem 0 X (.tup [all, all, .slice ⟨none, none, some 2⟩])) = .ok ([some "B", some "F", some "L"], [3, 2, 2], [1, 3, 4, 6, 7, 9, 10, 12, 13, 15, 16, 18], ⟨["first", "middle", "last"], [true, false, false], [false, false, true], [2, 2, 1], none⟩) := by rfl
-- 810-818, 841-848
example : shown (getitem 0 X (.tup [all, all, .list [1, 2]])) = .ok ([some "B", some "F", some "L"], [3, 2, 2], [2, 3, 5, 6, 8, 9, 11, 12, 14, 15, 17, 18], ⟨["first", "middle", "last"], [false, false, false], [false, false, true], [2, 2, 1], none⟩) := by rfl
-- 820-827, 850-857
example : shown (getitem 0 X (.tup [all, all, .list [0, 2]])) = .ok ([some "B", some "F", some "L"], [3, 2, 2], [1, 3, 4, 6, 7, 9, 10, 12, 13, 15, 16, 18], ⟨["first", "middle", "last"], [true, false, false], [false, false, true], [2, 2, 1], none⟩) := by rfl
-- 829-836, 859-866
example : shown (getitem 0 X (.tup [all, all, .list [0, 1]])) = .ok ([some "B", some "F", some "L"], [3, 2, 2], [1, 2, 4, 5, 7, 8, 10, 11, 13, 14, 16, 17], ⟨["first", "middle", "last"], [true, false, false], [false, false, false], [2, 2, 2], none⟩) := by rfl
-- 870-877
example : shown (getitem 0 X (.tup [all, all, .ints [1, 2]])) = .ok ([some "B", some "F", some "L"], [3, 2, 2], [2, 3, 5, 6, 8, 9, 11, 12, 14, 15, 17, 18], ⟨["first", "middle", "last"], [false, false, false], [false, false, true], [2, 2, 1], none⟩) := by rfl
-- 879-886
example : shown (getitem 0 X (.tup [all, all, .ints [0, 2]])) = .ok ([some "B", some "F", some "L"], [3, 2, 2], [1, 3, 4, 6, 7, 9, 10, 12, 13, 15, 16, 18], ⟨["first", "middle", "last"], [true, false, false], [false, false, true], [2, 2, 1], none⟩) := by rfl
-- 888-895
example : shown (getitem 0 X (.tup [all, all, .ints [0, 1]])) = .ok ([some "B", some "F", some "L"], [3, 2, 2], [1, 2, 4, 5, 7, 8, 10, 11, 13, 14, 16, 17], ⟨["first", "middle", "last"], [true, false, false], [false, false, false], [2, 2, 2], none⟩) := by rfl
-- 899-906
example : shown (getitem 0 X (.tup [all, all, .mask [false, true, true]])) = .ok ([some "B", some "F", some "L"], [3, 2, 2], [2, 3, 5, 6, 8, 9, 11, 12, 14, 15, 17, 18], ⟨["first", "middle", "last"], [false, false, false], [false, false, true], [2, 2, 1], none⟩) := by rfl
-- 908-915
example : shown (getitem 0 X (.tup [all, all, .mask [true, true, false]])) = .ok ([some "B", some "F", some "L"], [3, 2, 2], [1, 2, 4, 5, 7, 8, 10, 11, 13, 14, 16, 17], ⟨["first", "middle", "last"], [true, false, false], [false, false, false], [2, 2, 2], none⟩) := by rfl
-- 917-928
example : streamed (getitemM 0 X (.bare (.mask (mask2 [[true, true], [false, true], [true, false]])))) = .ok ([some "B_F", some "L"], [4, 3], [1, 2, 3, 4, 5, 6, 10, 11, 12, 13, 14, 15], ⟨["first", "middle", "last"], [true, false, false], [false, false, true], [3, 3, 2], none⟩) := by rfl
-- 930-941
example : streamed (getitemM 0 X (.tup [.one all, .multi (.mask (mask2 [[true, true, true], [true, false, false]]))])) = .ok ([some "B", some "F_L"], [3, 4], [1, 2, 3, 4, 7, 8, 9, 10, 13, 14, 15, 16], ⟨["first", "middle", "last"], [true, false, false], [false, false, true], [3, 3, 2], none⟩) := by rfl
-- 943-951
example : streamed (getitemM 0 X (.tup [.one all, .multi (.mask (mask2 [[true, false, false], [true, false, false]]))])) = .ok ([some "B", some "F_L"], [3, 2], [1, 4, 7, 10, 13, 16], ⟨["first", "middle", "last"], [true, false, false], [false, false, false], [1, 1, 1], none⟩) := by rfl
-- 955-957
example : plainly (getitemM 0 XLBF (.bare (.mask (mask2 [[true, true, true], [true, false, false], [true, true, true]])))) = .ok ([none, none], [7, 2], [1, 4, 7, 10, 13, 16, 2, 5, 3, 6, 9, 12, 15, 18]) := by rfl
-- 959-961
example : plainly (getitemM 0 XLBF (.bare (.mask (mask2 [[true, true, true], [false, false, false], [true, true, true]])))) = .ok ([none, none], [6, 2], [1, 4, 7, 10, 13, 16, 3, 6, 9, 12, 15, 18]) := by rfl
-- 963-965
example : plainly (getitemM 0 XLBF (.bare (.mask (mask2 [[false, true, true], [false, false, false], [true, false, false]])))) = .ok ([none, none], [3, 2], [7, 10, 13, 16, 3, 6]) := by rfl
-- 967-969
example : plainly (getitemM 0 XBLF (.bare (.mask (mask2 [[false, true, true], [false, false, false], [true, false, false]])))) = .ok ([none, none], [3, 2], [2, 5, 3, 6, 13, 16]) := by rfl
-- 971-990
example : plainly (getitemM 0 X (.bare (.mask (mask3 [[[true, true, true], [true, false, false]], [[true, false, false], [true, false, false]], [[true, false, false], [true, false, false]]])))) = .ok ([none], [8], [1, 2, 3, 4, 7, 10, 13, 16]) := by rfl
-- 992-1002
example : streamed (getitemM 0 X (.tup [.one all, .multi (.ints (ints2 [[0, 1], [1, 1]]))])) = .ok ([some "B", none, some "F", some "L"], [3, 2, 2, 3], [1, 2, 3, 4, 5, 6, 4, 5, 6, 4, 5, 6, 7, 8, 9, 10, 11, 12, 10, 11, 12, 10, 11, 12, 13, 14, 15, 16, 17, 18, 16, 17, 18, 16, 17, 18], ⟨["first", "middle", "last"], [true, false, false], [false, false, true], [3, 3, 2], none⟩) := by rfl
-- 1004-1007
example : streamed (getitemM 0 X (.bare (.ints (ints2 [[0, 1, 2], [0, 1, 2]])))) = .error .indexError := by rfl
-- 1009-1012
example : streamed (getitemM 0 X (.tup [.one .ellipsis, .multi (.ints (ints2 [[0, 1], [1, 1]]))])) = .error .indexError := by rfl
-- 1014-1027
example : shown (getitem 0 X (.tup [all, .int 0, .int 0])) = .ok ([some "B"], [3], [1, 7, 13], ⟨["first", "middle", "last"], [true, false, false], [false, false, false], [1, 1, 1], none⟩) := by rfl
-- 1029-1041
example : shown (getitem 0 X (.tup [all, .int 0, .slice ⟨some 1, none, none⟩])) = .ok ([some "B", some "L"], [3, 2], [2, 3, 8, 9, 14, 15], ⟨["first", "middle", "last"], [false, false, false], [false, false, true], [2, 2, 1], none⟩) := by rfl
-- 1043-1056
example : shown (getitem 0 X (.tup [.slice ⟨none, some (-1), none⟩, all, .slice ⟨some 1, none, none⟩])) = .ok ([some "B", some "F", some "L"], [2, 2, 2], [2, 3, 5, 6, 8, 9, 11, 12], ⟨["first", "middle"], [false, false], [false, false], [2, 2], none⟩) := by rfl
-- 1060-1067
example : shown (getitem 0 X (.tup [.int 0, .ellipsis])) = .ok ([some "F", some "L"], [2, 3], [1, 2, 3, 4, 5, 6], ⟨["first"], [true], [false], [3], none⟩) := by rfl
-- 1069-1076
example : shown (getitem 0 X (.tup [.int 0, .ellipsis, all])) = .ok ([some "F", some "L"], [2, 3], [1, 2, 3, 4, 5, 6], ⟨["first"], [true], [false], [3], none⟩) := by rfl
-- 1078-1085
example : shown (getitem 0 X (.tup [.int 0, all, .ellipsis])) = .ok ([some "F", some "L"], [2, 3], [1, 2, 3, 4, 5, 6], ⟨["first"], [true], [false], [3], none⟩) := by rfl
-- 1087-1094
example : shown (getitem 0 X (.tup [.int 0, .ellipsis, .ellipsis])) = .ok ([some "F", some "L"], [2, 3], [1, 2, 3, 4, 5, 6], ⟨["first"], [true], [false], [3], none⟩) := by rfl
-- 1096-1103
example : shown (getitem 0 X (.tup [.ellipsis, .int 0])) = .ok ([some "B", some "F"], [3, 2], [1, 4, 7, 10, 13, 16], ⟨["first", "middle", "last"], [true, false, false], [false, false, false], [1, 1, 1], none⟩) := by rfl
-- 1105-1112. The test says that this keeps one feature; it compares the data with torch, for which both Ellipses stand for two axes each, so it is the first frame that is kept, and the axis named L holds the features (C158)
example : shown (getitem 0 X (.tup [.ellipsis, .int 0, .ellipsis])) = .ok ([some "B", some "L"], [3, 2], [1, 4, 7, 10, 13, 16], ⟨["first", "middle", "last"], [true, false, false], [false, false, true], [3, 3, 2], none⟩) := by rfl
-- 1115-1122
example : shown (getitem 0 X (.bare .none)) = .ok ([none, some "B", some "F", some "L"], [1, 3, 2, 3], [1, 2, 3, 4, 5, 6, 7, 8, 9, 10, 11, 12, 13, 14, 15, 16, 17, 18], ⟨["first", "middle", "last"], [true, false, false], [false, false, true], [3, 3, 2], none⟩) := by rfl
-- 1124-1131
example : shown (getitem 0 X (.tup [.none, .none])) = .ok ([none, none, some "B", some "F", some "L"], [1, 1, 3, 2, 3], [1, 2, 3, 4, 5, 6, 7, 8, 9, 10, 11, 12, 13, 14, 15, 16, 17, 18], ⟨["first", "middle", "last"], [true, false, false], [false, false, true], [3, 3, 2], none⟩) := by rfl
-- 1133-1140
example : shown (getitem 0 X (.tup [all, .none])) = .ok ([some "B", none, some "F", some "L"], [3, 1, 2, 3], [1, 2, 3, 4, 5, 6, 7, 8, 9, 10, 11, 12, 13, 14, 15, 16, 17, 18], ⟨["first", "middle", "last"], [true, false, false], [false, false, true], [3, 3, 2], none⟩) := by rfl
-- 1142-1149
example : shown (getitem 0 X (.tup [all, all, .none])) = .ok ([some "B", some "F", none, some "L"], [3, 2, 1, 3], [1, 2, 3, 4, 5, 6, 7, 8, 9, 10, 11, 12, 13, 14, 15, 16, 17, 18], ⟨["first", "middle", "last"], [true, false, false], [false, false, true], [3, 3, 2], none⟩) := by rfl
-- 1151-1158
example : shown (getitem 0 X (.tup [all, all, all, .none])) = .ok ([some "B", some "F", some "L", none], [3, 2, 3, 1], [1, 2, 3, 4, 5, 6, 7, 8, 9, 10, 11, 12, 13, 14, 15, 16, 17, 18], ⟨["first", "middle", "last"], [true, false, false], [false, false, true], [3, 3, 2], none⟩) := by rfl
-- 1160-1167
example : shown (getitem 0 X (.tup [.ellipsis, .none])) = .ok ([some "B", some "F", some "L", none], [3, 2, 3, 1], [1, 2, 3, 4, 5, 6, 7, 8, 9, 10, 11, 12, 13, 14, 15, 16, 17, 18], ⟨["first", "middle", "last"], [true, false, false], [false, false, true], [3, 3, 2], none⟩) := by rfl
-- 1264-1265
example : plainly (flatten XBFDL 0 1) = .ok ([none, none, none], [6, 2, 3], [1, 2, 3, 1, 2, 3, 4, 5, 6, 4, 5, 6, 7, 8, 9, 7, 8, 9, 10, 11, 12, 10, 11, 12, 13, 14, 15, 13, 14, 15, 16, 17, 18, 16, 17, 18]) := by rfl
-- 1267-1275
example : streamed (flatten XBFDL 1 2) = .ok ([some "B", some "F_D", some "L"], [3, 4, 3], [1, 2, 3, 1, 2, 3, 4, 5, 6, 4, 5, 6, 7, 8, 9, 7, 8, 9, 10, 11, 12, 10, 11, 12, 13, 14, 15, 13, 14, 15, 16, 17, 18, 16, 17, 18], ⟨["first", "middle", "last"], [true, false, false], [false, false, true], [3, 3, 2], none⟩) := by rfl
-- 1277-1278
example : plainly (flatten XBFDL 2 3) = .ok ([none, none, none], [3, 2, 6], [1, 2, 3, 1, 2, 3, 4, 5, 6, 4, 5, 6, 7, 8, 9, 7, 8, 9, 10, 11, 12, 10, 11, 12, 13, 14, 15, 13, 14, 15, 16, 17, 18, 16, 17, 18]) := by rfl
-- 1282-1289
example : shown (unsqueeze X 0) = .ok ([none, some "B", some "F", some "L"], [1, 3, 2, 3], [1, 2, 3, 4, 5, 6, 7, 8, 9, 10, 11, 12, 13, 14, 15, 16, 17, 18], ⟨["first", "middle", "last"], [true, false, false], [false, false, true], [3, 3, 2], none⟩) := by rfl
-- 1291-1298
example : shown (unsqueeze X 0 >>= fun y => unsqueeze y 0) = .ok ([none, none, some "B", some "F", some "L"], [1, 1, 3, 2, 3], [1, 2, 3, 4, 5, 6, 7, 8, 9, 10, 11, 12, 13, 14, 15, 16, 17, 18], ⟨["first", "middle", "last"], [true, false, false], [false, false, true], [3, 3, 2], none⟩) := by rfl
-- 1300-1307
example : shown (unsqueeze X 0 >>= fun y => unsqueeze y 2 >>= fun z => unsqueeze z 0) = .ok ([none, none, some "B", none, some "F", some "L"], [1, 1, 3, 1, 2, 3], [1, 2, 3, 4, 5, 6, 7, 8, 9, 10, 11, 12, 13, 14, 15, 16, 17, 18], ⟨["first", "middle", "last"], [true, false, false], [false, false, true], [3, 3, 2], none⟩) := by rfl
-- 1311-1318
example : shown (squeezeDim X 0) = .ok ([some "B", some "F", some "L"], [3, 2, 3], [1, 2, 3, 4, 5, 6, 7, 8, 9, 10, 11, 12, 13, 14, 15, 16, 17, 18], ⟨["first", "middle", "last"], [true, false, false], [false, false, true], [3, 3, 2], none⟩) := by rfl
-- 1320-1332
example : shown (squeezeDim XSum 1) = .ok ([some "B", some "L"], [3, 3], [5, 7, 9, 17, 19, 21, 29, 31, 33], ⟨["first", "middle", "last"], [true, false, false], [false, false, true], [3, 3, 2], none⟩) := by rfl
-- 1334-1344
example : shown (unsqueeze X 0 >>= fun y => unsqueeze y 0 >>= fun z => squeezeNone z) = .ok ([some "B", some "F", some "L"], [3, 2, 3], [1, 2, 3, 4, 5, 6, 7, 8, 9, 10, 11, 12, 13, 14, 15, 16, 17, 18], ⟨["first", "middle", "last"], [true, false, false], [false, false, true], [3, 3, 2], none⟩) := by rfl
-- 1180-1189
example : streamed (scatter [X, X2] 1 (.ok ⟨[3, 2, 3], [none, none, none], entries [11, 2, 21, 4, 19, 6, 41, 8, 51, 10, 49, 12, 71, 14, 81, 16, 79, 18]⟩)) = .ok ([some "B", some "F", some "L"], [3, 2, 3], [11, 2, 21, 4, 19, 6, 41, 8, 51, 10, 49, 12, 71, 14, 81, 16, 79, 18], ⟨["first", "middle", "last"], [true, false, false], [false, false, true], [3, 3, 2], none⟩) := by rfl
-- 1175-1178, 1191-1198, 1217-1225, 1239-1247: along batch and length the result is a plain tensor, whatever torch computes
example (t : Ten Nat) : scatter [X, X2] 0 (.ok t) = .ok (.plain t) := by rfl
example (t : Ten Nat) : scatter [X, X2] 2 (.ok t) = .ok (.plain t) := by rfl
-- 1200-1210
example : streamed ((scatterInto X [X2] 1 (.ok ⟨[3, 2, 3], [none, none, none], entries [11, 2, 21, 4, 19, 6, 41, 8, 51, 10, 49, 12, 71, 14, 81, 16, 79, 18]⟩)).1) = .ok ([some "B", some "F", some "L"], [3, 2, 3], [11, 2, 21, 4, 19, 6, 41, 8, 51, 10, 49, 12, 71, 14, 81, 16, 79, 18], ⟨["first", "middle", "last"], [true, false, false], [false, false, true], [3, 3, 2], none⟩) := by rfl

end DS.Tn
