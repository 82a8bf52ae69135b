import Verif.Props.Pipeline
/-! C116: split, batch, run online, collect. -/

namespace DS.Pipe
open Meta Conv Coll

section
variable {α : Type} [Zero α]

/-- Everything the collector needs to know about the outputs of a stack. -/
theorem chain_shape (ls : List (Layer α)) (clean : Bool) (hl : StackOK clean ls) (xs : List (ST α)) (hx : ScheduleUp xs) (hcl : clean = true → ∀ x ∈ xs, WellPacked x)
    (hfine : Fine ls xs) (hnone : ∀ x ∈ xs, x.md.chunk = none) (zs : List (ST α)) (t : List (Layer α × Buf α)) (h : chainRun (fresh ls) xs = .ok (zs, t)) :
    (∀ z ∈ zs, Shaped z ∧ Tight z.width (unpack z) ∧ z.md.chunk = none) ∧ (zs.map fun y => (unpack y).map Chunk.flags) = (xs.map fun x => (unpack x).map Chunk.flags) := by
  induction ls generalizing xs t clean with
  | nil =>
    rw [show fresh ([] : List (Layer α)) = [] from rfl, chainRun_nil] at h
    simp only [Except.ok.injEq, Prod.mk.injEq] at h
    obtain ⟨rfl, -⟩ := h
    exact ⟨fun z hz => ⟨(hx.1 z hz).1, (hx.1 z hz).2.2, hnone z hz⟩, rfl⟩
  | cons l ls ih =>
    rw [show fresh (l :: ls) = (l, fun _ => none) :: fresh ls from rfl] at h
    obtain ⟨ys, b', t', h1, h2⟩ := chainRun_cons h
    obtain ⟨⟨clean', k1, k2⟩, a1, a2, a3⟩ := layer_up hl hfine.2.1 hx hcl h1
    have hny : ∀ y ∈ ys, y.md.chunk = none := by
      cases l with
      | conv c g =>
        rw [layerRun_conv] at h1
        exact run_chunk_none h1 hnone
      | act f =>
        rw [layerRun_act] at h1
        simp only [Except.ok.injEq, Prod.mk.injEq] at h1
        rw [← h1.1]
        intro y hy
        obtain ⟨x, hxm, rfl⟩ := List.mem_map.1 hy
        exact hnone x hxm
    have hfy := hfine.2.2 ys b' h1
    by_cases hne : ls = []
    · subst hne
      rw [show fresh ([] : List (Layer α)) = [] from rfl, chainRun_nil] at h2
      simp only [Except.ok.injEq, Prod.mk.injEq] at h2
      obtain ⟨rfl, -⟩ := h2
      exact ⟨fun z hz => ⟨(a1 z hz).1, (a1 z hz).2, hny z hz⟩, a2⟩
    · have hsy : ScheduleUp ys := by
        refine ⟨fun y hy => ⟨(a1 y hy).1, ?_, (a1 y hy).2⟩, fun i => ?_⟩
        · cases ls with
          | nil => exact absurd rfl hne
          | cons l' ls' => exact hfy.1 y hy
        · obtain ⟨done, cur, hh⟩ := hx.2 i
          obtain ⟨d, c, h', -⟩ := via_history hh (a3 i done cur hh)
          exact ⟨d, c, h'⟩
      obtain ⟨r1, r2⟩ := ih clean' k1 ys hsy k2 hfy hny t' h2
      exact ⟨r1, r2.trans a2⟩

theorem narrowRow_take (m : Meta) (w : Nat) (r r' : List α) (l : Int) (h : pyGet m.lengths 0 = .ok l) (ht : r.take l.toNat = r'.take l.toNat) :
    narrowRow m w r = narrowRow m w r' := by
  unfold narrowRow
  rw [h, Except.bind_ok', Except.bind_ok', ht]

/-- The collector does not look at the padding. -/
theorem unpad_zeroed {x : ST α} (h : Shaped x) : unpad x = unpad (zeroed x) := by
  unfold unpad
  show _ = (do
    let ms ← x.md.unbindBatch
    unpadRows x.width ms (zeroed x).rows)
  rw [zeroed_rows h]
  by_cases hne : x.md.rows = []
  · have : x.rows = [] := List.length_eq_zero_iff.1 (by rw [← shaped_rows h, hne]; rfl)
    rw [this, hne]
    rfl
  · have hun := unbind_ofRows x.md.chunk.isSome x.md.rows hne
    rw [← eq_ofRows x.md h.1] at hun
    rw [hun, Except.bind_ok', Except.bind_ok']
    have hw := h.2.2.1
    have hl : ∀ r ∈ x.md.rows, 0 ≤ r.len ∧ r.len ≤ x.width := by
      intro r hr
      exact h.2.2.2 r.len (by rw [lengths_rows x.md h.1]; exact List.mem_map_of_mem hr)
    generalize x.md.rows = rs at hl
    generalize x.rows = fs at hw
    induction rs generalizing fs with
    | nil => rfl
    | cons r rs ih =>
      match fs with
      | [] => rfl
      | f :: fs =>
        simp only [List.map_cons, List.zipWith_cons_cons, unpadRows]
        have h1 := hl r (by simp)
        have h2 := hw f (by simp)
        rw [ih (fun r hr => hl r (by simp [hr])) fs (fun f hf => hw f (by simp [hf]))]
        rw [narrowRow_take (ofRows x.md.chunk.isSome [r]) x.width f (f.take r.len.toNat ++ zeros (x.width - r.len.toNat)) r.len rfl]
        rw [List.take_append_of_le_length (by simp; omega), List.take_take, Nat.min_self]

theorem update_zeroed : ∀ (zs : List (ST α)) (s : Coll α), (∀ z ∈ zs, Shaped z) → Coll.update s (zs.map Item.batch) = Coll.update s ((zs.map zeroed).map Item.batch)
  | [], _, _ => rfl
  | z :: zs, s, h => by
    have he : updateItem s (.batch z) = updateItem s (.batch (zeroed z)) := by
      simp only [updateItem]
      rw [unpad_zeroed (h z (by simp))]
    simp only [List.map_cons, Coll.update, he]
    have ih := fun s' => update_zeroed zs s' (fun z hz => h z (by simp [hz]))
    rcases updateItem s (.batch (zeroed z)) with ⟨s', _ | e⟩
    · exact ih s'
    · rfl

theorem stream_eq : ∀ (xs : List (ST α)) (st t : List (Layer α × Buf α)) (s s' : Coll α) (zs : List (ST α)), chainRun st xs = .ok (zs, t) →
    Coll.update s (zs.map Item.batch) = (s', none) → stream st s xs = .ok s'
  | [], st, t, s, s', zs => by
    intro h1 h2
    simp only [chainRun, Except.ok.injEq, Prod.mk.injEq] at h1
    obtain ⟨rfl, -⟩ := h1
    simp only [List.map_nil, Coll.update, Prod.mk.injEq, and_true] at h2
    rw [stream, h2]
  | x :: xs, st, t, s, s', zs => by
    intro h1 h2
    simp only [chainRun] at h1
    obtain ⟨⟨y, st1⟩, h3, h1⟩ := bind_ok_iff h1
    obtain ⟨⟨ys, st2⟩, h4, h1⟩ := bind_ok_iff h1
    simp only [Except.ok.injEq, Prod.mk.injEq] at h1
    obtain ⟨rfl, rfl⟩ := h1
    simp only [stream, h3, Except.bind_ok']
    simp only [List.map_cons, Coll.update] at h2
    rcases hu : updateItem s (.batch y) with ⟨s1, _ | e⟩
    · rw [hu] at h2
      exact stream_eq xs st1 st2 s1 s' ys h4 h2
    · rw [hu] at h2
      simp at h2

/-- The stack and the collector on a schedule of complete sequences. -/
theorem stream_collect (ls : List (Layer α)) (hl : StackOK true ls) (xs : List (ST α)) (hx : Schedule xs) (hfine : Fine ls xs) (hnone : ∀ x ∈ xs, x.md.chunk = none)
    (hone : ∀ i, chunksOf i (xs.map unpack) ≠ [] → Complete (chunksOf i (xs.map unpack)))
    (zs : List (ST α)) (t : List (Layer α × Buf α)) (h : chainRun (fresh ls) xs = .ok (zs, t)) (hfirst : ∀ i y, (chunksOf i (zs.map unpack)).head? = some y → y.frames ≠ []) :
    ∃ s, stream (fresh ls) Coll.new xs = .ok s ∧ ∀ i,
      (chunksOf i (xs.map unpack) = [] → s.entries i = none) ∧
      (chunksOf i (xs.map unpack) ≠ [] → ∃ e, s.entries i = some e ∧ e.frames = offlineChain ls (collected i xs)) := by
  have hup : ScheduleUp xs := ⟨fun x hm => ⟨wp_shaped (hx.1 x hm).1, (hx.1 x hm).2⟩, hx.2⟩
  obtain ⟨h1, h2⟩ := chain_shape ls true hl xs hup (fun _ x hm => (hx.1 x hm).1) hfine hnone zs t h
  have hu : ∀ z ∈ zs, unpack (zeroed z) = unpack z := fun z hz => unpack_zeroed (h1 z hz).1
  have hmap : (zs.map zeroed).map unpack = zs.map unpack := by
    rw [List.map_map]
    exact List.map_congr_left hu
  have hcar : List.Forall₂ Carries ((zs.map zeroed).map Item.batch) (zs.map unpack) := by
    have h3 := fun z hz => (h1 z hz).1
    have h4 := fun z hz => (h1 z hz).2.1
    clear h h1 h2 hfirst hmap
    induction zs with
    | nil => exact .nil
    | cons z zs ih =>
      have hw := zeroed_wp (h3 z (by simp))
      rw [WellPacked, hu z (by simp)] at hw
      refine .cons ⟨?_, hw⟩ (ih (fun z hz => hu z (by simp [hz])) (fun z hz => h3 z (by simp [hz])) (fun z hz => h4 z (by simp [hz])))
      intro h0
      obtain ⟨u, hum, -⟩ := h4 z (by simp)
      rw [h0] at hum
      simp at hum
  have hflags : (zs.map unpack).map (·.map Chunk.flags) = (xs.map unpack).map (·.map Chunk.flags) := by
    rw [List.map_map, List.map_map]; exact h2
  have hst : ∀ i, Stream (chunksOf i (zs.map unpack)) := by
    intro i
    have hi : ∀ y ∈ chunksOf i (zs.map unpack), y.index.isSome = false := by
      intro y hy
      obtain ⟨l, hlm, hyl⟩ := List.mem_flatten.1 (List.mem_filter.1 hy).1
      obtain ⟨z, hz, rfl⟩ := List.mem_map.1 hlm
      rw [← hu z hz] at hyl
      rw [packs_index (zeroed_wp (h1 z hz).1) y hyl]
      show z.md.chunk.isSome = false
      rw [(h1 z hz).2.2]
      rfl
    by_cases hn : chunksOf i (xs.map unpack) = []
    · have := chunksOf_flags hflags i
      rw [hn, List.map_nil, List.map_eq_nil_iff] at this
      rw [this]
      exact ⟨by intro k c hc; simp at hc, by intro k c hc; simp at hc, .inl (by simp)⟩
    · have hc := hone i hn
      exact stream_flags (chunksOf_flags hflags i) hc.2.1 (fun k c' hk he => (hc.2.2 k c' hk).1 he) hi
  obtain ⟨s, k1, k2⟩ := C67_reassemble _ _ hcar hst hfirst
  rw [← update_zeroed zs Coll.new (fun z hz => (h1 z hz).1)] at k1
  refine ⟨s, stream_eq xs _ t _ s zs h k1, fun i => ⟨?_, ?_⟩⟩
  · intro hn
    have := chunksOf_flags hflags i
    rw [hn, List.map_nil, List.map_eq_nil_iff] at this
    exact (k2 i).1 this
  · intro hn
    have hne : chunksOf i (zs.map unpack) ≠ [] := by
      intro hy
      have := chunksOf_flags hflags i
      rw [hy, List.map_nil] at this
      exact hn (List.map_eq_nil_iff.1 this.symm)
    obtain ⟨e, h3, h4, -⟩ := (k2 i).2 hne
    refine ⟨e, h3, ?_⟩
    rw [h4]
    exact C113_pointwise_partial ls hl xs hx hfine zs t h i (hone i hn)

/-- **C116 is false of the code.** The last piece of `a` has one frame and gives no output in the first layer; the second layer gets it next to the first chunk of `b` and forgets that it was the last one, so the
output for the end padding never comes. If the last piece comes alone, the program stops with an exception. -/
theorem C116_program_false :
    Cuts [(1 : Int), 2, 3, 4] [3, 1] ∧ Cuts [(5 : Int), 6, 7] [3] ∧
    ((program [.conv ⟨3, 1, 2, 0⟩ exG, .conv ⟨2, 1, 1, 1⟩ exG] ["a", "b"] [[1, 2, 3, 4], [5, 6, 7]] [[3, 1], [3]] [[true, false], [true, true]]).map fun s => ((s.entries "a").map (·.frames), s.closed "a")) =
      .ok (some [123], false) ∧
    offlineChain [.conv ⟨3, 1, 2, 0⟩ exG, .conv ⟨2, 1, 1, 1⟩ exG] [1, 2, 3, 4] = [123, 1230] ∧
    ((program [.conv ⟨3, 1, 2, 0⟩ exG, .conv ⟨2, 1, 1, 1⟩ exG] ["a", "b"] [[1, 2, 3, 4], [5, 6, 7]] [[3, 1], [3]] [[true, false], [true, false], [false, true]]).map fun s => s.closed "a") = .error .runtimeError := by
  refine ⟨⟨by decide, by decide⟩, ⟨by decide, by decide⟩, by decide, by decide, by decide⟩

/-- The pieces of one sequence are long enough for the stack: the first one for one output, those in between for the total stride, and the last one for the total stride less what the end padding gives. -/
def LongEnough (ls : List (Layer α)) (ss : List Int) : Prop :=
  ∀ (k : Nat) (s : Int), ss[k]? = some s → (((if k = 0 then need ls else if k + 1 = ss.length then rest ls else jump ls) : Nat) : Int) ≤ s

theorem cut_atLeast (id : String) (n1 n2 n3 : Nat) : ∀ (ss : List Int) (first : Bool) (xs : List α),
    (∀ (k : Nat) (s : Int), ss[k]? = some s → (((if k = 0 ∧ first = true then n1 else if k + 1 = ss.length then n3 else n2) : Nat) : Int) ≤ s) → isum ss = xs.length →
    ∀ c ∈ cut id first ss xs, atLeast n1 n2 n3 c ≤ c.frames.length
  | [], _, _ => by simp [cut]
  | s :: ss, first, xs => by
    intro hn h c hc
    simp only [isum] at h
    have hpos : ∀ t ∈ ss, 0 ≤ t := by
      intro t ht
      obtain ⟨k, hk⟩ := List.getElem?_of_mem ht
      have := hn (k + 1) t (by simpa using hk)
      omega
    have hs := isum_nonneg ss hpos
    have h0 := hn 0 s rfl
    rcases List.mem_cons.1 hc with rfl | hc
    · simp only [List.length_take, atLeast]
      have he : (ss.isEmpty = true) ↔ (0 + 1 = (s :: ss).length) := by cases ss <;> simp
      rw [if_congr he rfl rfl]
      cases first with
      | true => simp only [and_self, if_true] at h0 ⊢; omega
      | false =>
        simp only [Bool.false_eq_true, and_false, if_false] at h0 ⊢
        omega
    · refine cut_atLeast id n1 n2 n3 ss false _ ?_ (by rw [List.length_drop]; omega) c hc
      intro k t ht
      have := hn (k + 1) t (by simpa using ht)
      simpa using this

/-- **C116, what holds.** If the first piece of each sequence is long enough for one output of the stack and the later ones for its total stride, whatever the order in which the pieces are dealt: the program runs without an exception, and at the end the
collector holds, for exactly the given ids, the offline output of the whole sequence. Missing: shorter pieces (in particular a very short last piece), strides that are not below the kernel widths, and pointwise functions with
`f 0 ≠ 0` before padded convolutions. -/
theorem C116_program_partial (ls : List (Layer α)) (hl : StackOK true ls) (ho : Overlapping ls) (ids : List String) (seqs : List (List α)) (sizes : List (List Int)) (flips : List (List Bool))
    (hnd : ids.Nodup) (hlen : seqs.length = ids.length) (hne : seqs ≠ []) (hfr : ∀ s ∈ seqs, s ≠ []) (hcut : List.Forall₂ Cuts seqs sizes)
    (hlong : ∀ ss ∈ sizes, LongEnough ls ss) (hen : ∀ (k : Nat) (ss : List Int), sizes[k]? = some ss → Enough flips k ss) :
    ∃ s, program ls ids seqs sizes flips = .ok s ∧ (∀ i, i ∉ ids → s.entries i = none) ∧
      ∀ (k : Nat) (i : String) (seq : List α), ids[k]? = some i → seqs[k]? = some seq → ∃ e, s.entries i = some e ∧ e.frames = offlineChain ls seq := by
  obtain ⟨bs, left, e1, h1, h2⟩ := batches_spec ids seqs sizes flips hnd hlen hne hfr hcut
  obtain ⟨xs, left', e2, h3, h4⟩ := C115_batches ids seqs sizes flips hnd hlen hne hfr hcut
  rw [e1] at e2
  simp only [Except.ok.injEq, Prod.mk.injEq] at e2
  obtain ⟨rfl, -⟩ := e2
  have hidx : ∀ b ∈ bs, ∀ c ∈ b, c.index.isSome = false := fun b hb c hc => by rw [((h1 b hb).2.2 c hc).1]; rfl
  have hu : ∀ b ∈ bs, unpack (pk false (maxLen b) b) = b := fun b hb => unpack_pk _ _ _ (hidx b hb)
  have hmap : (bs.map fun b => pk false (maxLen b) b).map unpack = bs := by
    rw [List.map_map]
    conv_rhs => rw [← List.map_id bs]
    exact List.map_congr_left fun b hb => hu b hb
  have hsz : sizes.length = seqs.length := hcut.length_eq.symm
  have hget : ∀ i ∈ ids, ∃ (k : Nat) (seq : List α) (ss : List Int), ids[k]? = some i ∧ seqs[k]? = some seq ∧ sizes[k]? = some ss := by
    intro i hi
    obtain ⟨k, hk⟩ := List.getElem?_of_mem hi
    have hkl := (List.getElem?_eq_some_iff.1 hk).1
    exact ⟨k, seqs[k], sizes[k], hk, List.getElem?_eq_getElem (by omega), List.getElem?_eq_getElem (by omega)⟩
  have hout : ∀ i, i ∉ ids → chunksOf i bs = [] := by
    intro i hi
    unfold chunksOf
    rw [List.filter_eq_nil_iff]
    intro c hc
    obtain ⟨b, hb, hcb⟩ := List.mem_flatten.1 hc
    have := (h1 b hb).2.1.subset (List.mem_map_of_mem (f := fun c : Chunk α => c.id) hcb)
    simp only [decide_eq_true_eq]
    rintro rfl
    exact hi this
  have hone : ∀ i, chunksOf i bs ≠ [] → Complete (chunksOf i bs) := by
    intro i hn
    by_cases hi : i ∈ ids
    · obtain ⟨k, seq, ss, g1, g2, g3⟩ := hget i hi
      obtain ⟨l, -, -, hc⟩ := h4 k i seq ss g1 g2 g3
      have := (hc (hen k ss g3)).2.1
      rw [hmap] at this
      exact this
    · exact absurd (hout i hi) hn
  have hsched : Schedule (bs.map fun b => pk false (maxLen b) b) := by
    refine ⟨fun x hx => ⟨(h3 x hx).1, (h3 x hx).2.1, (h3 x hx).2.2.1⟩, ?_⟩
    intro i
    rw [hmap]
    by_cases hn : chunksOf i bs = []
    · exact ⟨[], [], by simp [History, hn]⟩
    · exact ⟨[chunksOf i bs], [], by simpa [History] using hone i hn⟩
  have hlong' : ∀ x ∈ (bs.map fun b => pk false (maxLen b) b), ∀ u ∈ unpack x, atLeast (need ls) (jump ls) (rest ls) u ≤ u.frames.length := by
    intro x hx u hum
    obtain ⟨b, hb, rfl⟩ := List.mem_map.1 hx
    rw [hu b hb] at hum
    obtain ⟨-, k, i, s, ss, g1, g2, g3, hcc⟩ := (h1 b hb).2.2 u hum
    obtain ⟨ss', g4, -, c2⟩ := forall₂_getElem hcut g2
    rw [g3, Option.some.injEq] at g4
    subst g4
    rw [total_isum] at c2
    exact cut_atLeast i _ _ _ ss true s (fun k t ht => by simpa using hlong ss (List.mem_of_getElem? g3) k t ht) c2 u hcc
  obtain ⟨hfine, zs, t, hrun, hzs⟩ := stack_field ls true hl ho _ ⟨fun x hm => ⟨wp_shaped (hsched.1 x hm).1, (hsched.1 x hm).2⟩, hsched.2⟩ (fun _ x hm => (hsched.1 x hm).1) hlong'
  obtain ⟨s, k1, k2⟩ := stream_collect ls hl _ hsched hfine (fun x hx => (h3 x hx).2.2.2.1) (by rw [hmap]; exact hone) zs t hrun (by
    intro i y hy h0
    have := List.mem_of_mem_head? hy
    obtain ⟨l, hlm, hyl⟩ := List.mem_flatten.1 (List.mem_filter.1 this).1
    obtain ⟨z, hz, rfl⟩ := List.mem_map.1 hlm
    have := hzs z hz y hyl
    rw [h0] at this
    simp at this)
  rw [hmap] at k2
  refine ⟨s, ?_, fun i hi => (k2 i).1 (hout i hi), ?_⟩
  · unfold program
    rw [e1, Except.bind_ok']
    exact k1
  · intro k i seq g1 g2
    have hkl := (List.getElem?_eq_some_iff.1 g2).1
    have g3 : sizes[k]? = some sizes[k] := List.getElem?_eq_getElem (by omega)
    obtain ⟨l, -, -, hc⟩ := h4 k i seq _ g1 g2 g3
    obtain ⟨-, hcomp, hcol⟩ := hc (hen k _ g3)
    rw [hmap] at hcomp
    obtain ⟨e, e3, e4⟩ := (k2 i).2 hcomp.1
    exact ⟨e, e3, by rw [e4, hcol]⟩

/-- Two sequences through two convolutions with strides 2 and 1 and a sigmoid-like function at the end; the last piece of `a` has one frame. -/
example : LongEnough (exStrided ++ [.act (· + 5)]) [4, 2, 1] ∧ LongEnough (exStrided ++ [.act (· + 5)]) [4] ∧ Cuts [(1 : Int), 2, 3, 4, 5, 6, 7] [4, 2, 1] ∧ Cuts [(7 : Int), 8, 9, 1] [4] ∧
    Enough [[true, false], [true, true], [true, false]] 0 [4, 2, 1] ∧ Enough [[true, false], [true, true], [true, false]] 1 [4] ∧
    ((program (exStrided ++ [.act (· + 5)]) ["a", "b"] [[1, 2, 3, 4, 5, 6, 7], [7, 8, 9, 1]] [[4, 2, 1], [4]] [[true, false], [true, true], [true, false]]).map fun s => ((s.entries "a").map (·.frames), (s.entries "b").map (·.frames))) =
      .ok (some (offlineChain (exStrided ++ [.act (· + 5)]) [1, 2, 3, 4, 5, 6, 7]), some (offlineChain (exStrided ++ [.act (· + 5)]) [7, 8, 9, 1])) := by
  refine ⟨?_, ?_, ⟨by decide, by decide⟩, ⟨by decide, by decide⟩, by unfold Enough; decide, by unfold Enough; decide, by decide⟩
  · intro k s hs
    match k with
    | 0 => cases hs; decide
    | 1 => cases hs; decide
    | 2 => cases hs; decide
    | k + 3 => simp at hs
  · intro k s hs
    match k with
    | 0 => cases hs; decide
    | k + 1 => simp at hs

end
end DS.Pipe
