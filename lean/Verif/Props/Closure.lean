import Verif.Props.CatLength
import Verif.Props.Mask2D
/-! # C29: every history of metadata operations yields equally long columns -/

namespace DS.Meta

theorem init_wf {ids : List String} {sos eos : List Bool} {lengths : List Int} {chunk : Option (List Int)} {m : Meta}
    (h : init ids sos eos lengths chunk = .ok m) (hc : ∀ c, chunk = some c → c.length = ids.length ∨ c.length = sos.length) : m.WF := by
  unfold init at h
  split at h
  · rename_i hl
    simp only [Except.ok.injEq] at h
    subst h
    refine ⟨by simp only; omega, by simp only; omega, by simp only; omega, fun c h => ?_⟩
    simp only at h ⊢
    rcases hc c h with h | h <;> omega
  · simp at h

theorem bind_ok_iff {α β : Type} {x : Py α} {f : α → Py β} {b : β} (h : (x >>= f) = .ok b) : ∃ a, x = .ok a ∧ f a = .ok b := by
  cases x with
  | error e => rw [Except.bind_error'] at h; simp at h
  | ok a => exact ⟨a, rfl, h⟩

theorem pyGather_length {α : Type} {xs : List α} {is : List Int} {ys : List α} (h : pyGather xs is = .ok ys) : ys.length = is.length := by
  induction is generalizing ys with
  | nil => simp only [pyGather, Except.ok.injEq] at h; subst h; rfl
  | cons i is ih =>
    simp only [pyGather] at h
    obtain ⟨x, -, h⟩ := bind_ok_iff h
    obtain ⟨r, h1, h⟩ := bind_ok_iff h
    simp only [Except.ok.injEq] at h; subst h
    simp [ih h1]

theorem torchMask_length {α β : Type} {xs : List α} {ys : List β} {bs : List Bool} {a : List α} {b : List β}
    (h1 : torchMask xs bs = .ok a) (h2 : torchMask ys bs = .ok b) : a.length = b.length := by
  unfold torchMask at h1 h2
  split at h1 <;> [skip; simp at h1]
  split at h2 <;> [skip; simp at h2]
  rename_i l1 l2
  simp only [Except.ok.injEq] at h1 h2
  subst h1; subst h2
  induction bs generalizing xs ys with
  | nil => cases xs <;> cases ys <;> simp_all
  | cons c bs ih =>
    cases xs with
    | nil => simp at l1
    | cons x xs =>
      cases ys with
      | nil => simp at l2
      | cons y ys =>
        have := ih (xs := xs) (ys := ys) (by simpa using l1) (by simpa using l2)
        cases c <;> simp_all

theorem torchSlice_length {α β : Type} {xs : List α} {ys : List β} (hl : xs.length = ys.length) {s : Slice} {a : List α} {b : List β}
    (h1 : torchSlice xs s = .ok a) (h2 : torchSlice ys s = .ok b) : a.length = b.length := by
  by_cases hs : 0 < s.step.getD 1
  · rw [torchSlice_eq xs s hs] at h1
    rw [torchSlice_eq ys s hs] at h2
    simp only [Except.ok.injEq] at h1 h2
    subst h1; subst h2
    rw [hl, gath_length, gath_length]
    · exact fun j hj => slicePos_lt _ _ j hj
    · exact fun j hj => hl ▸ slicePos_lt _ _ j hj
  · unfold torchSlice at h1; rw [if_pos (by omega)] at h1; simp at h1

theorem tupleIndex_length {α β : Type} {xs : List α} {ys : List β} (hl : xs.length = ys.length) {is : List Int} {a : List α} {b : List β}
    (h1 : tupleIndex xs is = .ok a) (h2 : tupleIndex ys is = .ok b) : a.length = b.length := by
  match is with
  | [] => simp only [tupleIndex, Except.ok.injEq] at h1 h2; subst h1; subst h2; exact hl
  | [i] =>
    simp only [tupleIndex] at h1
    obtain ⟨_, -, h⟩ := bind_ok_iff h1
    simp at h
  | i :: j :: r => simp [tupleIndex] at h1

/-- Indexing all columns with an operation whose result size depends on the column size only gives equally long columns. -/
theorem cols_wf {m : Meta} (hm : m.WF) (F : {α : Type} → List α → Py (List α))
    (hF : ∀ {α β : Type} {xs : List α} {ys : List β} {a : List α} {b : List β}, xs.length = ys.length → F xs = .ok a → F ys = .ok b → a.length = b.length)
    {ids : List String} {m' : Meta}
    (h : (do
      let sos ← F m.sos
      let eos ← F m.eos
      let lengths ← F m.lengths
      let chunk ← onChunk F m.chunk
      init ids sos eos lengths chunk) = .ok m') : m'.WF := by
  obtain ⟨s, hs, h⟩ := bind_ok_iff h
  obtain ⟨e, he, h⟩ := bind_ok_iff h
  obtain ⟨l, hl, h⟩ := bind_ok_iff h
  obtain ⟨c, hc, h⟩ := bind_ok_iff h
  refine init_wf h ?_
  intro d hd
  right
  cases hch : m.chunk with
  | none => rw [hch] at hc; simp only [onChunk, Except.ok.injEq] at hc; rw [← hc] at hd; simp at hd
  | some x =>
    rw [hch] at hc
    simp only [onChunk] at hc
    obtain ⟨y, hy, h2⟩ := bind_ok_iff hc
    simp only [Except.ok.injEq] at h2
    rw [← h2] at hd
    simp only [Option.some.injEq] at hd
    subst hd
    exact hF (by rw [hm.2.2.2 x hch, hm.1]) hy hs

theorem indexBatch_wf {m m' : Meta} (hm : m.WF) {ix : BIx} (h : m.indexBatch ix = .ok m') : m'.WF := by
  cases ix with
  | none => simp only [indexBatch, Except.ok.injEq] at h; subst h; exact hm
  | multi => simp [indexBatch] at h
  | scalar => simp [indexBatch] at h
  | int i =>
    simp only [indexBatch] at h
    obtain ⟨x, -, h⟩ := bind_ok_iff h
    exact cols_wf hm (fun xs => pyGather xs [i]) (fun _ a b => by rw [pyGather_length a, pyGather_length b]) h
  | mask bs =>
    simp only [indexBatch] at h
    obtain ⟨x, -, h⟩ := bind_ok_iff h
    exact cols_wf hm (fun xs => torchMask xs bs) (fun _ a b => torchMask_length a b) h
  | bools bs =>
    simp only [indexBatch] at h
    obtain ⟨x, -, h⟩ := bind_ok_iff h
    exact cols_wf hm (fun xs => torchMask xs bs) (fun _ a b => torchMask_length a b) h
  | list is =>
    simp only [indexBatch, indexBatch.gather] at h
    obtain ⟨x, -, h⟩ := bind_ok_iff h
    exact cols_wf hm (fun xs => pyGather xs is) (fun _ a b => by rw [pyGather_length a, pyGather_length b]) h
  | ints is =>
    simp only [indexBatch, indexBatch.gather] at h
    obtain ⟨x, -, h⟩ := bind_ok_iff h
    exact cols_wf hm (fun xs => pyGather xs is) (fun _ a b => by rw [pyGather_length a, pyGather_length b]) h
  | slice s =>
    simp only [indexBatch] at h
    obtain ⟨x, -, h⟩ := bind_ok_iff h
    exact cols_wf hm (fun xs => torchSlice xs s) (fun hl a b => torchSlice_length hl a b) h
  | tuple is =>
    simp only [indexBatch] at h
    obtain ⟨x, -, h⟩ := bind_ok_iff h
    exact cols_wf hm (fun xs => tupleIndex xs is) (fun hl a b => tupleIndex_length hl a b) h

theorem init_same_wf {m m' : Meta} (hm : m.WF) {sos eos : List Bool} {lengths : List Int} (h : init m.ids sos eos lengths m.chunk = .ok m') : m'.WF :=
  init_wf h (fun c hc => .inl (hm.2.2.2 c hc))

theorem indexLengthSlice_wf {m m' : Meta} (hm : m.WF) {s : Slice} (h : m.indexLengthSlice s = .ok m') : m'.WF := by
  unfold indexLengthSlice at h
  obtain ⟨ml, -, h⟩ := bind_ok_iff h
  obtain ⟨⟨start, stop, stride⟩, -, h⟩ := bind_ok_iff h
  simp only at h
  split at h
  · simp at h
  · split at h
    · exact init_same_wf hm h
    · exact init_same_wf hm h

theorem indexLengthList_wf {junk : Int} {m m' : Meta} (hm : m.WF) {is : List Int} (h : m.indexLengthList junk is = .ok m') : m'.WF := by
  unfold indexLengthList at h
  obtain ⟨ml, -, h⟩ := bind_ok_iff h
  simp only at h
  split at h
  · simp at h
  · exact init_same_wf hm h

theorem indexLength_wf {junk : Int} {m m' : Meta} (hm : m.WF) {ix : LIx} (h : m.indexLength junk ix = .ok m') : m'.WF := by
  cases ix with
  | none => simp only [indexLength, Except.ok.injEq] at h; subst h; exact hm
  | multi => simp [indexLength] at h
  | int i =>
    simp only [indexLength, indexLengthInt] at h
    split at h
    · obtain ⟨i', -, h⟩ := bind_ok_iff h
      exact init_same_wf hm h
    · simp only [Except.bind_ok'] at h
      exact init_same_wf hm h
  | slice s => exact indexLengthSlice_wf hm h
  | list is => exact indexLengthList_wf hm h
  | mask bs => exact indexLengthList_wf hm h

theorem lengthPieces_wf {m : Meta} (hm : m.WF) {bs : List (Int × Int)} {ps : List Meta} (h : lengthPieces m bs = .ok ps) : ∀ p ∈ ps, p.WF := by
  induction bs generalizing ps with
  | nil => simp only [lengthPieces, Except.ok.injEq] at h; subst h; simp
  | cons b bs ih =>
    obtain ⟨i, j⟩ := b
    simp only [lengthPieces] at h
    obtain ⟨p, h1, h⟩ := bind_ok_iff h
    obtain ⟨r, h2, h⟩ := bind_ok_iff h
    simp only [Except.ok.injEq] at h
    subst h
    intro q hq
    rcases List.mem_cons.1 hq with rfl | hq
    · exact indexLengthSlice_wf hm h1
    · exact ih h2 q hq

theorem splitLength_wf {m : Meta} (hm : m.WF) {arg : SplitArg} {ps : List Meta} (h : m.splitLength arg = .ok ps) : ∀ p ∈ ps, p.WF := by
  cases arg with
  | size k =>
    simp only [splitLength] at h
    obtain ⟨ml, -, h⟩ := bind_ok_iff h
    split at h
    · simp at h
    · split at h
      · simp only [Except.ok.injEq] at h; subst h; simp
      · exact lengthPieces_wf hm h
  | sections ss =>
    simp only [splitLength] at h
    obtain ⟨ml, -, h⟩ := bind_ok_iff h
    split at h
    · simp at h
    · exact lengthPieces_wf hm h

theorem splitBatch_wf {m : Meta} (hm : m.WF) {arg : SplitArg} {ps : List Meta} (h : m.splitBatch arg = .ok ps) : ∀ p ∈ ps, p.WF := by
  obtain ⟨rs, hu, he, hr⟩ := exists_ofRows m hm
  have hlen : rs.length = m.ids.length := by rw [← hr]; exact rows_length m hm
  generalize m.chunk.isSome = b at he hu
  cases arg with
  | size k =>
    have h0 : 0 < k := by
      unfold splitBatch at h
      simp only at h
      split at h
      · simp at h
      · split at h
        · simp at h
        · omega
    obtain ⟨n, rfl⟩ : ∃ n : Nat, k = n := ⟨k.toNat, by omega⟩
    by_cases hne : rs = []
    · subst hne
      rw [he] at h
      unfold splitBatch at h
      simp only [if_neg (by omega : ¬ (n : Int) = 0), if_neg (by omega : ¬ (n : Int) < 0)] at h
      simp only [ofRows, List.map_nil, chunks, chunksFuel] at h
      simp only [List.length_nil, chunksFuel, zipMetas, Except.ok.injEq] at h
      subst h; simp
    · rw [he, splitBatch_size _ _ _ (by omega) hne] at h
      simp only [Except.ok.injEq] at h
      subst h
      intro p hp
      obtain ⟨c, -, rfl⟩ := List.mem_map.1 hp
      exact ofRows_wf _ _
  | sections ss =>
    have hs : isum ss = rs.length ∧ ∀ s ∈ ss, 0 ≤ s := by
      unfold splitBatch at h
      simp only at h
      split at h
      · simp at h
      · split at h
        · simp at h
        · rename_i h1 h2
          refine ⟨by unfold size at h1; rw [hlen]; omega, ?_⟩
          intro s hs
          by_contra hcon
          exact h2 (List.any_eq_true.2 ⟨s, hs, by simp; omega⟩)
    rw [he, splitBatch_sections _ _ _ hs.1 hs.2] at h
    simp only [Except.ok.injEq] at h
    subst h
    intro p hp
    obtain ⟨c, -, rfl⟩ := List.mem_map.1 hp
    exact ofRows_wf _ _

theorem maskCols_wf {m c : Meta} (hm : m.WF) {keep : List Bool} (h : maskCols m keep = .ok c) :
    ∀ d, c.chunk = some d → d.length = c.sos.length := by
  unfold maskCols at h
  split at h
  · simp only [Except.ok.injEq] at h; subst h; intro d hd; rw [hm.2.2.2 d hd, hm.1]
  · obtain ⟨i, -, h⟩ := bind_ok_iff h
    obtain ⟨s, hs, h⟩ := bind_ok_iff h
    obtain ⟨e, -, h⟩ := bind_ok_iff h
    obtain ⟨l, -, h⟩ := bind_ok_iff h
    obtain ⟨x, hx, h⟩ := bind_ok_iff h
    simp only [Except.ok.injEq] at h
    subst h
    intro d hd
    simp only at hd ⊢
    cases hch : m.chunk with
    | none => rw [hch] at hx; simp only [onChunk, Except.ok.injEq] at hx; rw [← hx] at hd; simp at hd
    | some y =>
      rw [hch] at hx
      simp only [onChunk] at hx
      obtain ⟨z, hz, h2⟩ := bind_ok_iff hx
      simp only [Except.ok.injEq] at h2
      rw [← h2] at hd
      simp only [Option.some.injEq] at hd
      subst hd
      exact torchMask_length hz hs

theorem torchMask_all_length {α : Type} {xs ys : List α} {bs : List Bool} (h : torchMask xs bs = .ok ys) :
    bs.length = xs.length ∧ ys.length = (bs.filter id).length := by
  unfold torchMask at h
  split at h <;> [skip; simp at h]
  rename_i hl
  refine ⟨hl, ?_⟩
  simp only [Except.ok.injEq] at h
  subst h
  induction bs generalizing xs with
  | nil => cases xs <;> simp_all
  | cons b bs ih =>
    cases xs with
    | nil => simp at hl
    | cons x xs =>
      have := ih (xs := xs) (by simpa using hl)
      cases b <;> simp_all

theorem maskCols_kept {m c : Meta} {keep : List Bool} (h : maskCols m keep = .ok c) :
    keep.all id = true ∨ c.sos.length = (keep.filter id).length := by
  unfold maskCols at h
  split at h
  · left; assumption
  · right
    obtain ⟨i, -, h⟩ := bind_ok_iff h
    obtain ⟨s, hs, h⟩ := bind_ok_iff h
    obtain ⟨e, -, h⟩ := bind_ok_iff h
    obtain ⟨l, -, h⟩ := bind_ok_iff h
    obtain ⟨x, hx, h⟩ := bind_ok_iff h
    simp only [Except.ok.injEq] at h
    subst h
    exact (torchMask_all_length hs).2

theorem bcast_length {α β γ : Type} {f : α → β → γ} {xs : List α} {ys : List β} {zs : List γ} (h : bcast f xs ys = .ok zs) :
    (xs.length = ys.length ∧ zs.length = xs.length) ∨ (xs.length = 1 ∧ zs.length = ys.length) ∨ (ys.length = 1 ∧ zs.length = xs.length) := by
  unfold bcast at h
  split at h
  · rename_i hl
    simp only [Except.ok.injEq] at h; subst h
    left; simp [hl]
  · split at h
    · simp only [Except.ok.injEq] at h; subst h; right; left; simp
    · simp only [Except.ok.injEq] at h; subst h; right; right; simp
    · simp at h

theorem mask2d_wf {m m' : Meta} (hm : m.WF) {rows : List (List Bool)} {w : Nat} (h : m.indexBatchAndLength rows w = .ok m') : m'.WF := by
  unfold indexBatchAndLength at h
  split at h
  · simp at h
  · simp only at h
    split at h
    swap
    · simp only [Except.ok.injEq] at h; subst h; simp [WF]
    · rename_i hany
      obtain ⟨bl, -, h⟩ := bind_ok_iff h
      split at h
      · simp only [Except.ok.injEq] at h; subst h; exact hm
      · obtain ⟨c, hc, h⟩ := bind_ok_iff h
        have hch := maskCols_wf hm hc
        unfold maskFinish at h
        obtain ⟨s, hs, h⟩ := bind_ok_iff h
        -- the rows of the filtered columns
        have hkeep : (rows.filter fun r => r.any id).length = ((rows.map fun r => r.any id).filter id).length := by
          rw [List.filter_map, List.length_map]; rfl
        split at h
        · refine init_wf h (fun d hd => ?_)
          left
          unfold init at h
          split at h <;> [skip; simp at h]
          rename_i hl
          -- ids of the columns are as many as chunk indices
          unfold maskCols at hc
          split at hc
          · simp only [Except.ok.injEq] at hc; subst hc; exact hm.2.2.2 d hd
          · obtain ⟨i, hi, hc⟩ := bind_ok_iff hc
            obtain ⟨s', hs', hc⟩ := bind_ok_iff hc
            obtain ⟨e', he', hc⟩ := bind_ok_iff hc
            obtain ⟨l', hl', hc⟩ := bind_ok_iff hc
            obtain ⟨x', hx', hc⟩ := bind_ok_iff hc
            simp only [Except.ok.injEq] at hc
            subst hc
            simp only at hd hl ⊢
            have := hch d hd
            simp only at this
            rw [this]
            have t1 := torchMask_length hs' hl'
            omega
        · obtain ⟨c1, -, h⟩ := bind_ok_iff h
          obtain ⟨c2, -, h⟩ := bind_ok_iff h
          obtain ⟨e1, -, h⟩ := bind_ok_iff h
          obtain ⟨e2, -, h⟩ := bind_ok_iff h
          obtain ⟨l, -, h⟩ := bind_ok_iff h
          obtain ⟨ch, hch2, h⟩ := bind_ok_iff h
          refine init_wf h (fun d hd => ?_)
          right
          cases hx : c.chunk with
          | none => rw [hx] at hch2; simp only [onChunk, Except.ok.injEq] at hch2; rw [← hch2] at hd; simp at hd
          | some y =>
            rw [hx] at hch2
            simp only [onChunk] at hch2
            obtain ⟨z, hz, h2⟩ := bind_ok_iff hch2
            simp only [Except.ok.injEq] at h2
            rw [← h2] at hd
            simp only [Option.some.injEq] at hd
            subst hd
            obtain ⟨a1, a2⟩ := torchMask_all_length hz
            have a3 := hch y hx
            have b1 := bcast_length hs
            simp only [List.length_map] at a1 b1
            rw [a2, ← hkeep]
            -- the mask has one row per chunk index, so nothing was dropped (or the columns were already short)
            have hle : (rows.filter fun r => r.any id).length ≤ rows.length := List.length_filter_le _ _
            have hpos : 0 < (rows.filter fun r => r.any id).length := by
              rw [List.any_map, List.any_eq_true] at hany
              obtain ⟨r, hr, hr2⟩ := hany
              exact List.length_pos_of_mem (List.mem_filter.2 ⟨hr, hr2⟩)
            rcases maskCols_kept hc with hall | hk
            · have : (rows.filter fun r => r.any id) = rows := by
                rw [List.all_map] at hall
                exact filter_eq_self_of_all _ _ hall
              rw [this] at b1 hpos ⊢
              omega
            · rw [← hkeep] at hk
              omega

/-- The operations of the metadata algebra; `i`, `is` name objects produced earlier. `junk` stands for the unchecked memory
read of `minmax` on an empty list. -/
inductive Op where
  | batch (i : Nat) (ix : BIx)
  | length (junk : Int) (i : Nat) (ix : LIx)
  | both (junk : Int) (i : Nat) (b : BIx) (l : LIx)
  | mask (i : Nat) (rows : List (List Bool)) (w : Nat)
  | dropEmpty (i : Nat)
  | splitBatch (i : Nat) (arg : SplitArg)
  | splitLength (i : Nat) (arg : SplitArg)
  | unbind (i : Nat)
  | catBatch (is : List Nat)
  | catLength (is : List Nat)

/-- The objects an operation produces (`[]` when it raises or an operand does not exist). -/
def exec (pool : List Meta) : Op → List Meta
  | .batch i ix => one i fun m => (m.indexBatch ix).map fun x => [x]
  | .length junk i ix => one i fun m => (m.indexLength junk ix).map fun x => [x]
  | .both junk i b l => one i fun m => (m.index2 junk b l).map fun x => [x]
  | .mask i rows w => one i fun m => (m.indexBatchAndLength rows w).map fun x => [x]
  | .dropEmpty i => one i fun m => (m.dropEmpty).map fun x => [x]
  | .splitBatch i arg => one i fun m => m.splitBatch arg
  | .splitLength i arg => one i fun m => m.splitLength arg
  | .unbind i => one i fun m => m.unbindBatch
  | .catBatch is => ((Meta.catBatch (is.filterMap (pool[·]?))).map fun x => [x]).toOption.getD []
  | .catLength is => ((Meta.catLength (is.filterMap (pool[·]?))).map fun x => [x]).toOption.getD []
where
  one (i : Nat) (f : Meta → Py (List Meta)) : List Meta :=
    match pool[i]? with
    | some m => (f m).toOption.getD []
    | none => []

theorem one_wf {pool : List Meta} (hp : ∀ m ∈ pool, m.WF) {i : Nat} {f : Meta → Py (List Meta)}
    (hf : ∀ m ps, m.WF → f m = .ok ps → ∀ p ∈ ps, p.WF) : ∀ p ∈ exec.one pool i f, p.WF := by
  unfold exec.one
  split
  · rename_i m hm
    cases he : f m with
    | error e => simp [Except.toOption]
    | ok ps => simpa [Except.toOption] using hf m ps (hp m (List.mem_of_getElem? hm)) he
  · simp

theorem map_single {m : Meta} {x : Py Meta} {ps : List Meta} (h : x.map (fun y => [y]) = .ok ps) (hx : ∀ y, x = .ok y → y.WF) : ∀ p ∈ ps, p.WF := by
  cases x with
  | error e => simp [Except.map] at h
  | ok y =>
    simp only [Except.map, Except.ok.injEq] at h
    subst h
    simpa using hx y rfl

theorem exec_wf {pool : List Meta} (hp : ∀ m ∈ pool, m.WF) (op : Op) : ∀ p ∈ exec pool op, p.WF := by
  have hsel : ∀ is : List Nat, ∀ m ∈ is.filterMap (pool[·]?), m.WF := by
    intro is m hm
    obtain ⟨i, -, hi⟩ := List.mem_filterMap.1 hm
    exact hp m (List.mem_of_getElem? hi)
  cases op with
  | batch i ix => exact one_wf hp fun m ps hm h => map_single (m := m) h fun y hy => indexBatch_wf hm hy
  | length junk i ix => exact one_wf hp fun m ps hm h => map_single (m := m) h fun y hy => indexLength_wf hm hy
  | both junk i b l =>
    refine one_wf hp fun m ps hm h => map_single (m := m) h fun y hy => ?_
    unfold index2 at hy
    obtain ⟨x, h1, h2⟩ := bind_ok_iff hy
    exact indexLength_wf (indexBatch_wf hm h1) h2
  | mask i rows w => exact one_wf hp fun m ps hm h => map_single (m := m) h fun y hy => mask2d_wf hm hy
  | dropEmpty i => exact one_wf hp fun m ps hm h => map_single (m := m) h fun y hy => indexBatch_wf hm hy
  | splitBatch i arg => exact one_wf hp fun m ps hm h => splitBatch_wf hm h
  | splitLength i arg => exact one_wf hp fun m ps hm h => splitLength_wf hm h
  | unbind i => exact one_wf hp fun m ps hm h => splitBatch_wf hm h
  | catBatch is =>
    simp only [exec]
    by_cases hne : is.filterMap (pool[·]?) = []
    · rw [hne]; simp [Meta.catBatch, Except.map, Except.toOption]
    · obtain ⟨m', h1, h2, -⟩ := C16_cat_batch _ hne (hsel is)
      rw [h1]; simpa [Except.map, Except.toOption] using h2
  | catLength is =>
    simp only [exec]
    generalize his : is.filterMap (pool[·]?) = ms
    have hw : ∀ m ∈ ms, m.WF := his ▸ hsel is
    match ms, hw with
    | [], _ => simp [Meta.catLength, Except.map, Except.toOption]
    | [m], hw => simpa [Meta.catLength, Except.map, Except.toOption] using hw m (by simp)
    | a :: b :: r, hw =>
      obtain ⟨h1, h2⟩ := C19_cat_length (a :: b :: r) (by simp) hw a ((a :: b :: r)[(a :: b :: r).length - 1]'(by simp)) rfl
        (List.getElem?_eq_getElem (by simp))
      by_cases hc : Consecutive (a :: b :: r)
      · obtain ⟨m', e, w, -⟩ := h1 hc
        rw [e]; simpa [Except.map, Except.toOption] using w
      · rw [h2 hc]; simp [Except.map, Except.toOption]

/-- **C29.** From well-formed objects, every object produced by any history of indexing (by batch, by length, jointly, by 2-D mask),
dropping empty rows, splitting, unbinding and concatenation has equally long columns (chunk indices included). -/
theorem C29_closure (pool : List Meta) (hp : ∀ m ∈ pool, m.WF) (ops : List Op) :
    ∀ m ∈ ops.foldl (fun pool op => pool ++ exec pool op) pool, m.WF := by
  induction ops generalizing pool with
  | nil => exact hp
  | cons op ops ih =>
    apply ih
    intro m hm
    rcases List.mem_append.1 hm with h | h
    · exact hp m h
    · exact exec_wf hp op m h

example : (∀ m ∈ [ex3], m.WF) ∧
    ([Op.splitLength 0 (.size 2), .batch 1 (.list [2, 0]), .catBatch [3, 2]].foldl (fun pool op => pool ++ exec pool op) [ex3]).map (·.lengths) =
      [[4, 2, 3], [2, 2, 2], [2, 0, 1], [2, 2], [2, 2, 2, 0, 1]] := by decide

end DS.Meta
