import Verif.Model.Ragged
import Verif.Model.Construct
/-!
# `custom_collate` on tensors of any rank

`data/stream_dataset.py:256-274` with the names of the dataset. `Model/Dataset` has it on lists of frames, without names.
-/

namespace DS.Tn

section
variable {α : Type}

/-- `StreamSample`, data_objects.py:14-26. Only the fields that `custom_collate` reads. -/
structure SampleT (α : Type) where
  data : Ten α
  id : String
  sos : Bool
  eos : Bool
  length : Nat
  chunkIndex : Nat

/-- `custom_collate`, stream_dataset.py:256-274; `names` is `self.names` (141, default `None`, 118). `pad` is the number 0. The metadata object is built at its first use; it cannot fail, because the columns have
equal length. -/
def collateTen (pad : α) (names : Option (List (Option String))) (batch : List (SampleT α)) : Py (STen α) := do
  let b := batch.mergeSort fun x y => decide (y.length ≤ x.length)                                   -- 259
  let t ← concatenateRagged (b.map SampleT.data) pad (-1)                                            -- 261-262
  let m ← Meta.init (b.map SampleT.id) (b.map SampleT.sos) (b.map SampleT.eos) (b.map fun s => (s.length : Int))
    (some (b.map fun s => (s.chunkIndex : Int)))                                                     -- 265-272
  asStream (.plain t) (some m) names                                                                 -- 273

end
end DS.Tn
