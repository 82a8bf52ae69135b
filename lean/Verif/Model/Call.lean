import Verif.Model.Reduce
import Verif.Model.Dispatch
import Verif.Model.Index
/-!
# Model of how arguments reach the overrides (dreamstream/tensor.py:795-796, dreamstream/overrides.py)

`CUSTOMIZED_FUNCTIONS[func](*args, **kwargs)` (tensor.py:796) is a Python call: the arguments that the caller wrote for the torch function are bound to the parameters of the override. torch has checked them against its own signature before. Also the forms of an axis argument that torch accepts:
a position, a name, several positions.
-/

namespace DS.Call

open DS.Disp DS.Tn

/-- A signature: parameters that may be given by position or by keyword, each with whether it is required; whether there is a `*args`; parameters that must be given by keyword. -/
structure Sig where
  pos : List (String × Bool)
  star : Bool := false
  kwonly : List (String × Bool) := []
  deriving DecidableEq

/-- The names of all parameters. -/
def Sig.names (s : Sig) : List String := (s.pos ++ s.kwonly).map Prod.fst

/-- Python's call protocol: positional arguments fill the parameters from the left, every keyword must be the name of a parameter that has no value yet, every required parameter needs a value; else TypeError. The result says what each parameter was given
(what a `*args` collects is left out). -/
def bind {V : Type} (s : Sig) (args : List V) (kw : List (String × V)) : Py (List (String × V)) :=
  let given := (s.pos.map Prod.fst).zip args
  if s.pos.length < args.length ∧ s.star = false then .error .typeError
  else if ∃ k ∈ kw.map Prod.fst, k ∉ s.names ∨ k ∈ given.map Prod.fst then .error .typeError
  else if ∃ p ∈ s.pos ++ s.kwonly, p.2 = true ∧ p.1 ∉ (given ++ kw).map Prod.fst then .error .typeError
  else .ok (given ++ kw)

/-- Required and optional parameters. -/
def req (n : String) : String × Bool := (n, true)
def opt (n : String) : String × Bool := (n, false)

/-- An override: the torch function, the signature torch documents for it (trusted; the first argument of a method is not a parameter), and that of the override. -/
structure Entry where
  fn : Fn
  torch : Sig
  ov : Sig

/-- The functions written in Python call `handle_torch_function` with `(self, split_size)` and `dim=dim`, whatever the caller wrote; the signature given here is what arrives. -/
def splitSig : Sig := ⟨[req "tensor", req "split_size_or_sections"], false, [opt "dim"]⟩

/-- The overrides with a fixed signature, overrides.py:52-853. (`__getitem__` is called through the operator with exactly one index.) -/
def entries : List Entry :=
  [⟨.f .cat, ⟨[req "tensors", opt "dim"], false, [opt "out"]⟩, ⟨[req "tensors", opt "dim"], false, [opt "out"]⟩⟩,                       -- 52, 55
   ⟨.f .concat, ⟨[req "tensors", opt "dim"], false, [opt "out"]⟩, ⟨[req "tensors", opt "dim"], false, [opt "out"]⟩⟩,                    -- 53
   ⟨.f .concatenate, ⟨[req "tensors", opt "dim"], false, [opt "out"]⟩, ⟨[req "tensors", opt "dim"], false, [opt "out"]⟩⟩,               -- 54
   ⟨.f .permute, ⟨[req "input", req "dims"], false, []⟩, ⟨[req "tensor", req "dims"], false, []⟩⟩,                                      -- 93-94
   ⟨.f .split, splitSig, ⟨[req "tensor", req "split_size_or_sections", opt "dim"], false, []⟩⟩,                                         -- 125-127
   ⟨.f .unbind, ⟨[req "input", opt "dim"], false, []⟩, ⟨[req "tensor", opt "dim"], false, []⟩⟩,                                         -- 142, 144
   ⟨.m .unbind, ⟨[opt "dim"], false, []⟩, ⟨[req "tensor", opt "dim"], false, []⟩⟩,                                                      -- 143
   ⟨.f .quantize_per_tensor, ⟨[req "input", req "scale", req "zero_point", req "dtype"], false, []⟩,
     ⟨[req "input", req "scale", req "zero_point", req "dtype"], false, []⟩⟩,                                                           -- 166-167
   ⟨.f .quantize_per_tensor_dynamic, ⟨[req "input", req "dtype", req "reduce_range"], false, []⟩,
     ⟨[req "input", req "dtype", req "reduce_range"], false, []⟩⟩,                                                                      -- 172-173
   ⟨.f .fake_quantize_per_tensor_affine, ⟨[req "input", req "scale", req "zero_point", req "quant_min", req "quant_max"], false, []⟩,
     ⟨[req "input", req "scale", req "zero_point", req "quant_min", req "quant_max"], false, []⟩⟩,                                      -- 178-179
   ⟨.f .frexp, ⟨[req "input"], false, [opt "out"]⟩, ⟨[req "input"], false, []⟩⟩,                                                        -- 183, 185
   ⟨.m .frexp, ⟨[], false, []⟩, ⟨[req "input"], false, []⟩⟩,                                                                            -- 184
   ⟨.f .conv1d, ⟨[req "input", req "weight", opt "bias", opt "stride", opt "padding", opt "dilation", opt "groups"], false, []⟩,
     ⟨[req "input", req "weight", opt "bias", opt "stride", opt "padding", opt "dilation", opt "groups"], false, []⟩⟩,                   -- 193-202
   ⟨.f .narrow, ⟨[req "input", req "dim", req "start", req "length"], false, []⟩, ⟨[req "input", req "dim", req "start", req "length"], false, []⟩⟩,  -- 576, 578
   ⟨.m .narrow, ⟨[req "dim", req "start", req "length"], false, []⟩, ⟨[req "input", req "dim", req "start", req "length"], false, []⟩⟩,  -- 577
   ⟨.f .gather, ⟨[req "input", req "dim", req "index"], false, [opt "sparse_grad", opt "out"]⟩,
     ⟨[req "input", req "dim", req "index", opt "sparse_grad", opt "out"], false, []⟩⟩,                                                 -- 592, 594-600
   ⟨.m .gather, ⟨[req "dim", req "index"], false, [opt "sparse_grad"]⟩, ⟨[req "input", req "dim", req "index", opt "sparse_grad", opt "out"], false, []⟩⟩,  -- 593
   ⟨.f .take_along_dim, ⟨[req "input", req "indices", opt "dim"], false, [opt "out"]⟩, ⟨[req "input", req "indices", req "dim"], false, [opt "out"]⟩⟩,  -- 604, 606-612
   ⟨.m .take_along_dim, ⟨[req "indices", opt "dim"], false, []⟩, ⟨[req "input", req "indices", req "dim"], false, [opt "out"]⟩⟩,         -- 605
   ⟨.f .take, ⟨[req "input", req "index"], false, [opt "out"]⟩, ⟨[req "input", req "indices"], false, [opt "out"]⟩⟩,                    -- 664, 666
   ⟨.m .take, ⟨[req "index"], false, []⟩, ⟨[req "input", req "indices"], false, [opt "out"]⟩⟩,                                          -- 665
   ⟨.f .select, ⟨[req "input", req "dim", req "index"], false, []⟩, ⟨[req "input", req "dim", req "index"], false, []⟩⟩,                -- 700, 703
   ⟨.m .select, ⟨[req "dim", req "index"], false, []⟩, ⟨[req "input", req "dim", req "index"], false, []⟩⟩,                             -- 701
   ⟨.f .select_copy, ⟨[req "input", req "dim", req "index"], false, [opt "out"]⟩, ⟨[req "input", req "dim", req "index"], false, []⟩⟩,  -- 702
   ⟨.f .index_select, ⟨[req "input", req "dim", req "index"], false, [opt "out"]⟩, ⟨[req "input", req "dim", req "index"], false, [opt "out"]⟩⟩,  -- 710, 712
   ⟨.m .index_select, ⟨[req "dim", req "index"], false, []⟩, ⟨[req "input", req "dim", req "index"], false, [opt "out"]⟩⟩,              -- 711
   ⟨.f .masked_select, ⟨[req "input", req "mask"], false, [opt "out"]⟩, ⟨[req "input", req "mask"], false, [opt "out"]⟩⟩,               -- 725-726
   ⟨.f .scatter_add, ⟨[req "input", req "dim", req "index", req "src"], false, [opt "out"]⟩,
     ⟨[req "input", req "dim", req "index", req "src", opt "out"], false, []⟩⟩,                                                         -- 736, 738-744
   ⟨.m .scatter_add, ⟨[req "dim", req "index", req "src"], false, []⟩, ⟨[req "input", req "dim", req "index", req "src", opt "out"], false, []⟩⟩,  -- 737
   ⟨.m .scatter_add_, ⟨[req "dim", req "index", req "src"], false, []⟩, ⟨[req "input", req "dim", req "index", req "src"], false, []⟩⟩,  -- 766-767
   ⟨.f .scatter_reduce, ⟨[req "input", req "dim", req "index", req "src", req "reduce"], false, [opt "include_self", opt "out"]⟩,
     ⟨[req "input", req "dim", req "index", req "src", req "reduce"], false, [opt "out", opt "include_self"]⟩⟩,                          -- 771, 773-782
   ⟨.m .scatter_reduce, ⟨[req "dim", req "index", req "src", req "reduce"], false, [opt "include_self"]⟩,
     ⟨[req "input", req "dim", req "index", req "src", req "reduce"], false, [opt "out", opt "include_self"]⟩⟩,                          -- 772
   ⟨.m .scatter_reduce_, ⟨[req "dim", req "index", req "src", req "reduce"], false, [opt "include_self"]⟩,
     ⟨[req "input", req "dim", req "index", req "reduce", req "src", opt "include_self"], false, []⟩⟩,                                  -- 803-806
   ⟨.f .flatten, ⟨[req "input", opt "start_dim", opt "end_dim"], false, []⟩, ⟨[req "input", opt "start_dim", opt "end_dim"], false, []⟩⟩,  -- 810, 812
   ⟨.m .flatten, ⟨[opt "start_dim", opt "end_dim"], false, []⟩, ⟨[req "input", opt "start_dim", opt "end_dim"], false, []⟩⟩,             -- 811
   ⟨.f .squeeze, ⟨[req "input", opt "dim"], false, []⟩, ⟨[req "input", opt "dim"], false, []⟩⟩,                                         -- 826, 828
   ⟨.m .squeeze, ⟨[opt "dim"], false, []⟩, ⟨[req "input", opt "dim"], false, []⟩⟩,                                                      -- 827
   ⟨.f .unsqueeze, ⟨[req "input", req "dim"], false, []⟩, ⟨[req "input", req "dim"], false, []⟩⟩,                                       -- 851, 853
   ⟨.m .unsqueeze, ⟨[req "dim"], false, []⟩, ⟨[req "input", req "dim"], false, []⟩⟩]                                                    -- 852

/-- A call of the torch function of an entry reaches the override: for a method, the tensor comes first. -/
def Entry.call {V : Type} (e : Entry) (self : V) (args : List V) (kw : List (String × V)) : Py (List (String × V)) :=
  match e.fn with
  | .m _ => bind e.ov (self :: args) kw
  | _ => bind e.ov args kw

/-- `tensor_permute(tensor, *dims)`, overrides.py:101-103: everything after the tensor is collected in `dims`, and no keyword is accepted. -/
def permuteSig : Sig := ⟨[req "tensor"], true, []⟩

section
variable {α : Type}

/-- An axis argument: a position or a name (torch has overloads for both). -/
inductive Ax where
  | pos (d : Int) | name (n : String)

/-- `names[dim]` on a Python tuple: a name is no index. -/
def pyGetAx {β : Type} (xs : List β) : Ax → Py β
  | .pos d => pyGet xs d
  | .name _ => .error .typeError

/-- torch resolves a name: RuntimeError if the tensor has no axis of that name (trusted). -/
def nameAxis (t : Ten α) (n : String) : Py Nat := if some n ∈ t.names then .ok (t.names.idxOf (some n)) else .error .runtimeError

/-- torch resolves an axis to a non-negative position. -/
def axisOf (t : Ten α) : Ax → Py Nat
  | .pos d => normDim t.ndim d
  | .name n => nameAxis t n

/-- `cat` with an axis given by name, overrides.py:55-90: a single tensor is returned as it is (59-60), otherwise the first StreamTensor is asked for `names[dim]` (63 with tensor.py:866-867). -/
def catAx (o : Opd α) (os : List (Opd α)) : Ax → Py (Opd α)
  | .pos d => cat o os d
  | .name n =>
    match os with
    | [] => .ok o
    | _ :: _ => do
      let _ ← (streams (o :: os)).mapM fun x => pyGetAx x.t.names (.name n)
      .error .typeError                                                  -- without a StreamTensor the override is not called

/-- `unbind`, overrides.py:144-163: `tensor.names[dim]` comes first (145). -/
def unbindAx (x : STen α) : Ax → Py (List (STen α))
  | .pos d => unbind x d
  | .name n => do
    let _ ← pyGetAx x.t.names (.name n)
    let a ← nameAxis x.t n
    unbind x a

/-- `select`, overrides.py:703-707: `dim >= 0` of a string is a TypeError. -/
def selectAx (junk : Int) (x : STen α) (i : Int) : Ax → Py (STen α)
  | .pos d => select junk x d i
  | .name _ => .error .typeError

/-- `index_select`, overrides.py:712-722: torch gets the tensor without names (713-714). -/
def indexSelectAx (junk : Int) (x : STen α) (index : IdxT) : Ax → Py (STen α)
  | .pos d => indexSelect junk x d index
  | .name n => do
    let a ← nameAxis x.t.unnamed n
    indexSelect junk x a index

/-- `gather`, overrides.py:594-601, 625-626: torch gets the tensor without names. -/
def gatherAx (junk : Int) (x : STen α) (index : Ten Nat) : Ax → Py (STen α)
  | .pos d => gather junk x d index
  | .name n => do
    let a ← nameAxis x.t.unnamed n
    gather junk x a index

/-- `squeeze`, overrides.py:828-848: torch gets the tensor without names (829, 836). -/
def squeezeAx (x : STen α) : Ax → Py (STen α)
  | .pos d => squeezeDim x d
  | .name n => do
    let a ← nameAxis x.t.unnamed n
    squeezeDim x a

/-- `torch.transpose`, recoupled (func_coverage.py:97): torch gets the tensor without names (tensor.py:1037, 1048). -/
def transposeAx (x : STen α) : Ax → Ax → Py (STen α)
  | .pos i, .pos j => torchTranspose x i j
  | a, b => do
    let i ← axisOf x.t.unnamed a
    let j ← axisOf x.t.unnamed b
    torchTranspose x i j

/-- `torch.sum(x, dim)` and other functions in no table: torch gets the tensor with its names (tensor.py:817). -/
def reduceAx (f : List α → α) (x : STen α) (keepdim : Bool) (a : Ax) : Py (STen α) := do
  let d ← axisOf x.t a
  reduceStream f x d keepdim

/-- `x.permute((i, j, …))`, one tuple instead of several ints: `dims` is a tuple holding a tuple (overrides.py:102-103). torch accepts that (95), then `tensor.names[dim]` is asked for with a tuple as index (97). -/
def permuteTuple (x : STen α) (dims : List Int) : Py (STen α) := do
  let _ ← x.t.unnamed.permute dims
  .error .typeError

/-- `x.squeeze((i, j, …))`, several axes at once (torch 2.0): torch squeezes them (836), then `size[dim]` is asked for with a tuple as index (842). torch refuses an axis given twice. -/
def squeezeTuple (x : STen α) (dims : List Int) : Py (STen α) := do
  let ds ← dims.mapM (normDim x.t.ndim)
  if ds.Nodup then .error .typeError else .error .runtimeError

end

end DS.Call
