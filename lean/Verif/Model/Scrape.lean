import Verif.Py
/-!
# Model of the lists of pointwise functions: doc_scrape/pointwise-ops.py writes them, dreamstream/utils/listloaders.py reads them

Texts are lists of characters. What torch does is an argument: which attributes `torch` and `torch.Tensor` have, and how the trials of a function end.
-/

namespace DS.Scrape

/-- A text. -/
abbrev Txt := List Char

/-- `"\n".join(names)`, doc_scrape/pointwise-ops.py:191-198. -/
def joinLines : List Txt → Txt
  | [] => []
  | [a] => a
  | a :: b :: r => a ++ '\n' :: joinLines (b :: r)

/-- `text.split("\n")`, utils/listloaders.py:16, 22, 28, 34: always at least one part. -/
def splitLines : Txt → List Txt
  | [] => [[]]
  | c :: cs =>
    if c = '\n' then [] :: splitLines cs
    else
      match splitLines cs with
      | a :: r => (c :: a) :: r
      | [] => [[c]]

/-- `"Tensor."`. -/
def prefixTensor : Txt := ['T', 'e', 'n', 's', 'o', 'r', '.']

/-- `x.replace("Tensor.", "")`: every occurrence is removed, from the left; `skip` counts the characters of the current occurrence that remain. -/
def removeTensor : Nat → Txt → Txt
  | _, [] => []
  | skip + 1, _ :: cs => removeTensor skip cs
  | 0, c :: cs => if prefixTensor.isPrefixOf (c :: cs) then removeTensor 6 cs else c :: removeTensor 0 cs

/-- A function: an attribute of `torch` or of `torch.Tensor`. -/
inductive Attr where
  | torch (name : Txt)
  | tensor (name : Txt)
  deriving DecidableEq, Repr

/-- `get_tensor_attr`, utils/listloaders.py:10-11; `has` says which attributes exist (AttributeError otherwise). -/
def getTensorAttr (has : Attr → Bool) (x : Txt) : Py Attr :=
  let a := if prefixTensor.isPrefixOf x then .tensor (removeTensor 0 x) else .torch x
  if has a then .ok a else .error .attributeError

/-- One of the loaders, utils/listloaders.py:14-35: the first file that matches (IndexError if there is none), its lines as functions. `files` are the contents of the files that
`glob` finds, in its order. The set is given as the list of what is put in. -/
def load (has : Attr → Bool) (files : List Txt) : Py (List Attr) :=
  match files with
  | [] => .error .indexError
  | text :: _ => (splitLines text).mapM (getTensorAttr has)

/-- How the trials of a function end, doc_scrape/pointwise-ops.py:121-176: whether one, two or three tensors are accepted, whether the function itself gives the expected StreamTensor
(`valid` or `default_valid`), and whether it does after `recouple` or `inplace_recouple`. -/
structure Probe where
  accepts : Bool
  direct : Bool
  recoupled : Bool
  deriving DecidableEq, Repr

/-- The lists that the script collects, doc_scrape/pointwise-ops.py:99-104. -/
inductive Verdict where
  | noInput | noOutput | valid | defaultValid | recouple | inplaceRecouple
  deriving DecidableEq, Repr

/-- `name.endswith(suffix)`. -/
def endsWith (name suffix : Txt) : Bool := suffix.isSuffixOf name

/-- `sub in name`. -/
def contains (sub : Txt) : Txt → Bool
  | [] => sub.isPrefixOf []
  | c :: cs => sub.isPrefixOf (c :: cs) || contains sub cs

/-- Functions that are handled by hand, doc_scrape/pointwise-ops.py:107-115. -/
def skipped (name : Txt) : Bool :=
  contains "quantize".toList name || endsWith name "real".toList || endsWith name "imag".toList || endsWith name "frexp".toList || endsWith name "gradient".toList

/-- The list that a function is put into, doc_scrape/pointwise-ops.py:117-176. -/
def verdict (name : Txt) (p : Probe) : Verdict :=
  let inplace := endsWith name ['_']
  if !p.accepts then .noInput
  else if p.direct then (if inplace then .valid else .defaultValid)
  else if p.recoupled then (if inplace then .inplaceRecouple else .recouple)
  else .noOutput

/-- The names that are tried for the names in the documentation, doc_scrape/pointwise-ops.py:88-97. -/
def funcNames (has : Attr → Bool) (docs : List Txt) : List Txt :=
  docs.flatMap fun n =>
    (if has (.torch n) then [n] else []) ++ (if has (.tensor n) then [prefixTensor ++ n] else []) ++
      (if has (.torch (n ++ ['_'])) then [n ++ ['_']] else []) ++ (if has (.tensor (n ++ ['_'])) then [prefixTensor ++ (n ++ ['_'])] else [])

/-- One of the lists, in order, doc_scrape/pointwise-ops.py:106-176. -/
def listOf (has : Attr → Bool) (probe : Txt → Probe) (docs : List Txt) (v : Verdict) : List Txt :=
  (funcNames has docs).filter fun n => !(skipped n) && decide (verdict n (probe n) = v)

/-- What is written to a file, doc_scrape/pointwise-ops.py:190-198. -/
def written (has : Attr → Bool) (probe : Txt → Probe) (docs : List Txt) (v : Verdict) : Txt := joinLines (listOf has probe docs v)

end DS.Scrape
