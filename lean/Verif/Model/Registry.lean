import Verif.Py
/-!
# Model of `implements` and `augment_documentation` (dreamstream/overrides.py:18-20, 35-50)

A torch function is known by a key (its identity as a dictionary key), its `__name__` and its `__doc__`. Functions are objects that the decorators change in place; the dictionary holds references, so an entry is the number of the function.
`update_wrapper` also copies `__module__`, `__qualname__` and `__dict__` and sets `__wrapped__`; only `__name__` and `__wrapped__` are modelled.
-/

namespace DS.Reg

/-- A torch function: key, name and documentation (`None` if there is none). -/
structure Torch where
  key : Nat
  name : String
  doc : Option String

/-- The attributes of a Python function that `implements` changes. -/
structure Fn where
  name : String
  doc : Option String
  wrapped : Option Nat
  deriving DecidableEq

/-- How an f-string shows `__doc__`. -/
def shown (d : Option String) : String := d.getD "None"

/-- `"=" * TORCH_DOC_LINEWIDTH`, overrides.py:20, 37. -/
def ruler : String := String.ofList (List.replicate 80 '=')

/-- `augment_documentation`, overrides.py:35-37. -/
def augment (own torch : Option String) : String := shown own ++ "\n\n" ++ ruler ++ "\n\n" ++ shown torch

/-- The functions of a module, by number, and `CUSTOMIZED_FUNCTIONS`, which maps keys to functions. -/
structure World where
  fns : Nat → Fn
  table : Nat → Option Nat

/-- `implements(tf)(f)`, overrides.py:40-50: copy the name, extend the documentation, register. -/
def implement (w : World) (tf : Torch) (f : Nat) : World :=
  { fns := fun g => if g = f then { name := tf.name, doc := some (augment (w.fns f).doc tf.doc), wrapped := some tf.key } else w.fns g
    table := fun k => if k = tf.key then some f else w.table k }

/-- A stack of decorators `@implements(tf)` above one `def`: the lowest is applied first; `tfs` is the stack from bottom to top. -/
def decorate (w : World) (tfs : List Torch) (f : Nat) : World := tfs.foldl (fun w tf => implement w tf f) w

/-- A module: definitions one after the other, each with its decorators from bottom to top. -/
def load (w : World) (defs : List (List Torch × Nat)) : World := defs.foldl (fun w d => decorate w d.1 d.2) w

end DS.Reg
