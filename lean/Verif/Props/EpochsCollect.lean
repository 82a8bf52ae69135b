import Verif.Props.Epochs
import Verif.Props.FilesCollect
/-! C229: collectors and passes in any order. -/

namespace DS.Coll
open Meta Conv

variable {α : Type} [Zero α]

/-- **C229**, collectors, passes that differ: a collector that has been given batches `ys` refuses further batches `zs`, with a ValueError, however they are cut, ordered and batched, as soon as they
have a first chunk of a stream of which there were frames, or frames of a stream whose frames have ended. -/
theorem C229_refuses (ys zs : List (ST α)) (css dss : List (List (Chunk α))) (h : List.Forall₂ (fun y cs => cs ≠ [] ∧ Packs y y.width cs) ys css)
    (h' : List.Forall₂ (fun y cs => cs ≠ [] ∧ Packs y y.width cs) zs dss) (c d : Chunk α) (hc : c ∈ css.flatten ∧ c.frames ≠ []) (hd : d ∈ dss.flatten ∧ d.frames ≠ [])
    (hid : d.id = c.id) (hse : d.sos = true ∨ c.eos = true) :
    (update Coll.new ((ys ++ zs).map Item.batch)).2 = some .valueError := by
  obtain ⟨h1, h2, -⟩ := C68_streams (ys ++ zs) (css ++ dss) (List.rel_append h h')
  refine h2 fun hn => ?_
  obtain ⟨hs, he, -⟩ := h1.1 hn c.id
  have hsum : nonEmpty (chunksOf c.id (css ++ dss)) = nonEmpty (chunksOf c.id css) ++ nonEmpty (chunksOf c.id dss) := by
    rw [chunksOf_append, nonEmpty, List.filter_append]
    rfl
  rw [hsum] at hs he
  have hm : c ∈ nonEmpty (chunksOf c.id css) := by
    simp only [nonEmpty, chunksOf, List.mem_filter, decide_eq_true_eq, List.length_pos_iff]
    exact ⟨⟨hc.1, trivial⟩, hc.2⟩
  have hm' : d ∈ nonEmpty (chunksOf c.id dss) := by
    simp only [nonEmpty, chunksOf, List.mem_filter, decide_eq_true_eq, List.length_pos_iff]
    exact ⟨⟨hd.1, hid⟩, hd.2⟩
  generalize nonEmpty (chunksOf c.id css) = a at hs he hm
  generalize nonEmpty (chunksOf c.id dss) = b at hs he hm'
  obtain ⟨j, hj, ej⟩ := List.mem_iff_getElem.1 hm
  obtain ⟨k, hk, ek⟩ := List.mem_iff_getElem.1 hm'
  rcases hse with hse | hse
  · have := (hs (a.length + k) d (by rw [List.getElem?_append_right (by omega), Nat.add_sub_cancel_left, List.getElem?_eq_getElem hk, ek])).1 hse
    omega
  · have := he j c (by rw [List.getElem?_append_left hj, List.getElem?_eq_getElem hj, ej]) hse
    rw [List.length_append] at this
    omega

-- The streams of `exColl` in a second pass with only the first of its batches.
example : List.Forall₂ (fun y cs => cs ≠ [] ∧ Packs y y.width cs) (exColl.take 1) ((exColl.take 1).map unpack) ∧
    (update Coll.new ((exColl ++ exColl.take 1).map Item.batch)).2 = some .valueError :=
  ⟨.cons ⟨by decide, by decide⟩ .nil, by decide⟩

end DS.Coll

namespace DS.Data
open Conv Coll

/-- **C229**, collectors and loaders: files of one chunk each, without drop_last, two epochs in any orders. The outputs of a patched convolution are accepted by a collector in the first epoch (`C161_collect_partial`); the same collector refuses those of the second, with a
ValueError. -/
theorem C229_epoch_refused {α β : Type} [Zero α] [Zero β] (disk : Disk α) (cfg : LoaderCfg) (d : Dataset α) (hs : Splittable d) (hdrop : cfg.dropLast = false) (hb : 0 < cfg.batchSize)
    (hdvd : max 1 cfg.numWorkers ∣ cfg.batchSize) (hn : d.files.Nodup) (hne : d.files ≠ [])
    (audio : String → List α) (size : String → Nat) (hL : ∀ f ∈ d.files, audio f ≠ []) (hsize : ∀ f ∈ d.files, 0 < size f)
    (hf : ∀ f ∈ d.files, processData disk d f = chunkSamples (size f : Int) f (audio f)) (hone : ∀ f ∈ d.files, (audio f).length ≤ size f)
    (order order' : List Nat) (ho : order.Perm (List.range d.files.length)) (ho' : order'.Perm (List.range d.files.length)) (orders orders' : List (List String) → List (List String))
    (hor : ∀ ls, List.Forall₂ List.Perm (orders ls) ls) (hor' : ∀ ls, List.Forall₂ List.Perm (orders' ls) ls)
    (c : Cfg) (hv : c.Valid) (g : List α → β) (hfit : ∀ f ∈ d.files, span c ≤ (audio f).length + 2 * c.padding) :
    ∃ fuel out xs ys buf fuel' out' xs' ys' buf', loader disk cfg d order orders fuel = .ok (out, .returned) ∧ collateAll out = .ok xs ∧ run c g (fun _ => none) xs = .ok (ys, buf) ∧
      loader disk cfg d order' orders' fuel' = .ok (out', .returned) ∧ collateAll out' = .ok xs' ∧ run c g (fun _ => none) xs' = .ok (ys', buf') ∧
      (update Coll.new ((ys ++ ys').map Item.batch)).2 = some .valueError := by
  obtain ⟨fuel, out, xs, ys, buf, a1, a2, a3, a4, a5, -⟩ := files_out disk cfg d hs hdrop hb hdvd hn hne audio size hL hsize hf hone order ho orders hor c hv g hfit
  obtain ⟨fuel', out', xs', ys', buf', b1, b2, b3, b4, b5, -⟩ := files_out disk cfg d hs hdrop hb hdvd hn hne audio size hL hsize hf hone order' ho' orders' hor' c hv g hfit
  refine ⟨fuel, out, xs, ys, buf, fuel', out', xs', ys', buf', a1, a2, a3, b1, b2, b3, ?_⟩
  obtain ⟨f, hm⟩ := List.exists_mem_of_ne_nil _ hne
  obtain ⟨hoff, k, hk⟩ := a5 f hm
  obtain ⟨-, k', hk'⟩ := b5 f hm
  have hin : ∀ (zs : List (ST β)) (y : Chunk β), Conv.chunksOf f (zs.map unpack) = [y] → y ∈ (zs.map unpack).flatten := by
    intro zs y h
    have : y ∈ Conv.chunksOf f (zs.map unpack) := by rw [h]; simp
    exact (List.mem_filter.1 this).1
  exact C229_refuses ys ys' _ _ a4 b4 _ _ ⟨hin ys _ hk, hoff⟩ ⟨hin ys' _ hk', hoff⟩ rfl (.inl rfl)

-- The conditions are those of `C161_collect_partial` (example there); two epochs in different orders.
example : [0, 1, 2].Perm (List.range exLong.files.length) ∧ [2, 0, 1].Perm (List.range exLong.files.length) := by decide

end DS.Data
