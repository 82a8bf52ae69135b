import Verif.Model.Collector
/-!
# Model of the work of an `OutputCollector` (data_objects.py:108-136)

Counted are the frames written by `torch.cat` in data_objects.py:131, which makes a new tensor of all frames of its arguments. Storing the first chunk (136) and unpadding (tensor.py:902-908,
views of the batch) write no frames.
-/

namespace DS.Coll
variable {α : Type}

/-- The frames written when `x` is collected, data_objects.py:118-136: those of the old entry and of `x` if there is an old entry and `x` is accepted. -/
def written (s : Coll α) (x : Entry α) : Nat :=
  if (updateItem s (.single x)).2 = none then
    match s.entries (x.md.ids.headD "") with
    | some old => old.frames.length + x.frames.length
    | none => 0
  else 0

/-- The frames written when `xs` are collected one after the other, data_objects.py:108-116. -/
def writtenAll (s : Coll α) : List (Entry α) → Nat
  | [] => 0
  | x :: xs => written s x + writtenAll (updateItem s (.single x)).1 xs

end DS.Coll
