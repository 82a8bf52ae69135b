import Verif.Model.Sync
import Verif.Model.Conv
/-!
# From files to tensors: what a loader hands to a network
-/

namespace DS.Data
open Conv
section
variable {α : Type} [Zero α]

/-- `custom_collate`, stream_dataset.py:256-274, as a StreamTensor of shape (batch, channels, length): the data are padded with zeros to the longest sample; the metadata are those of the samples. -/
def collateST (batch : List (Sample α)) : Py (ST α) := do
  let r ← collate 0 batch
  .ok { md := r.2, width := maxLen (batch.map Sample.data), rows := r.1 }

/-- All batches of a loader, collated, stream_dataset.py:505. -/
def collateAll : List (List (Sample α)) → Py (List (ST α))
  | [] => .ok []
  | b :: bs => do
    let x ← collateST b
    let xs ← collateAll bs
    .ok (x :: xs)

end
end DS.Data
