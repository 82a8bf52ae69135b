import Verif.Props.Undo
/-! C17 and C210 for batches without rows. -/

namespace DS.Meta

/-- **C17**, batches without rows: however large the pieces, there are none (where `torch.split` gives one without rows). -/
theorem C17_split_no_rows (m : Meta) (h0 : m.ids = []) (k : Nat) (hk : 0 < k) : m.splitBatch (.size k) = .ok [] := by
  unfold splitBatch
  simp only [if_neg (by omega : ¬ (k : Int) = 0), if_neg (by omega : ¬ (k : Int) < 0), h0]
  rfl

example : (⟨[], [], [], [], some []⟩ : Meta).splitBatch (.size 2) = .ok [] := C17_split_no_rows _ rfl 2 (by decide)

end DS.Meta

namespace DS.Tn
open Meta
variable {α : Type}

/-- **C210 is false** for batches without rows: torch gives one piece (a batch without rows) and `split` none, so that nothing is left to concatenate. -/
theorem C210_split_no_rows_false : ∃ x : STen (List Nat), x.Describes 0 1 ∧ (∃ t, x.t.split 0 (.size 2) = .ok [t]) ∧ split x (.size 2) 0 = .ok [] ∧ splitCat x (.size 2) 0 = .error .runtimeError :=
  ⟨⟨exT [0, 4] [some "B", some "L"], ⟨[], [], [], [], none⟩⟩, ⟨by decide, rfl, rfl, by decide, rfl, 4, rfl, by decide⟩, ⟨_, rfl⟩, rfl, rfl⟩

end DS.Tn
