import Verif.Model.MetaCat
/-!
# Model of `metadata[indices]`: the dispatch of `StreamMetadata.index` over everything that can be given as an index (tensor.py:372-402)
-/

namespace DS.Meta

/-- An entry of a list or tuple given as an index: `None`, an int, a slice, a list or tuple of ints, a 1-D integer or bool tensor, a 0-d tensor, a tensor with more axes.
(Bools in a tuple are ints to the code and are not modelled as entries.) -/
inductive Entry where
  | none
  | int (i : Int)
  | slice (s : Slice)
  | list (is : List Int)
  | tuple (is : List Int)
  | ints (is : List Int)
  | mask (bs : List Bool)
  | scalar (i : Int)
  | multi
  deriving DecidableEq, Repr

/-- The entry as an argument of `index_batch`, tensor.py:404-440. -/
def Entry.batch : Entry → BIx
  | .none => .none
  | .int i => .int i
  | .slice s => .slice s
  | .list is => .list is
  | .tuple is => .tuple is
  | .ints is => .ints is
  | .mask bs => .mask bs
  | .scalar i => .scalar i
  | .multi => .multi

/-- The entry as an argument of `index_length`, tensor.py:442-460. A 0-d tensor and a tensor with more than one axis both raise IndexError. -/
def Entry.length : Entry → LIx
  | .none => .none
  | .int i => .int i
  | .slice s => .slice s
  | .list is => .list is
  | .tuple is => .list is
  | .ints is => .list is
  | .mask bs => .mask bs
  | .scalar _ => .multi
  | .multi => .multi

/-- `isinstance(i, (int, bool))`, tensor.py:383. -/
def Entry.isInt : Entry → Bool
  | .int _ => true
  | _ => false

/-- The value of an int entry. -/
def Entry.value : Entry → Int
  | .int i => i
  | _ => 0

/-- What can be between the brackets of `metadata[…]`: an entry that is no list or tuple, a list of bools, a 2-D mask of width `w`, a list or a tuple of entries, or something else (a string, say). -/
inductive MIx where
  | one (e : Entry)
  | bools (bs : List Bool)
  | mask2 (rows : List (List Bool)) (w : Nat)
  | list (es : List Entry)
  | tuple (es : List Entry)
  | other
  deriving DecidableEq, Repr

/-- The inner `match` of tensor.py:384-392 for a list or tuple that does not consist of ints: with two entries the first is the batch index and the second the length index (as in `index2`);
with any other number of entries no case matches, and the method ends without a `return`: the result is `None`. -/
def indexPair (junk : Int) (m : Meta) : List Entry → Py (Option Meta)
  | [b, l] => (m.index2 junk b.batch l.length).map some
  | _ => .ok none

/-- `metadata[indices]`, tensor.py:372-402. The result `none` is Python's `None`. -/
def index (junk : Int) (m : Meta) : MIx → Py (Option Meta)
  | .one (.list is) => (m.indexBatch (.list is)).map some
  | .one (.tuple is) => match is with                              -- tuples of ints
    | [i, j] => (m.index2 junk (.int i) (.int j)).map some         -- 397-398
    | _ => .error .typeError                                       -- 401-402
  | .one .multi => .error .indexError                              -- an integer tensor with two or more axes: 395-396, then 413
  | .one e => (m.indexBatch e.batch).map some                      -- 395-396, 399-400
  | .bools bs => (m.indexBatch (.bools bs)).map some               -- 395-396
  | .mask2 rows w => (m.indexBatchAndLength rows w).map some       -- 393-394
  | .list es =>
    if es.all Entry.isInt then (m.indexBatch (.list (es.map Entry.value))).map some
    else indexPair junk m es
  | .tuple es =>
    if es.all Entry.isInt then
      match es.map Entry.value with
      | [i, j] => (m.index2 junk (.int i) (.int j)).map some
      | _ => .error .typeError
    else indexPair junk m es
  | .other => .error .typeError

end DS.Meta
