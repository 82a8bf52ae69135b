import Verif.Props.StreamDrop
import Verif.Props.Faults
import Verif.Props.FromFiles2
/-! C160 and C161 with drop_last. -/

namespace DS.Data
open Meta Conv
section
variable {α : Type}

/-- A sample that may have been marked as the end of its file. -/
def Marked (s s' : Sample α) : Prop := s' = s ∨ s' = { s with eos := true }

theorem Marked.id {s s' : Sample α} (h : Marked s s') : s'.id = s.id := by
  rcases h with rfl | rfl <;> rfl

theorem marked_refl (l : List (Sample α)) : List.Forall₂ Marked l l := by
  induction l with
  | nil => exact .nil
  | cons a as ih => exact .cons (.inl rfl) ih

theorem marked_end (l : List (Sample α)) : List.Forall₂ Marked l (l.map Sample.end) := by
  induction l with
  | nil => exact .nil
  | cons a as ih => exact .cons (.inr rfl) ih

theorem marked_append {a a' b b' : List (Sample α)} (h : List.Forall₂ Marked a a') (h' : List.Forall₂ Marked b b') : List.Forall₂ Marked (a ++ b) (a' ++ b') := by
  induction h with
  | nil => exact h'
  | cons h1 _ ih => exact .cons h1 ih

theorem marked_ids {a a' : List (Sample α)} (h : List.Forall₂ Marked a a') : a'.map Sample.id = a.map Sample.id := by
  induction h with
  | nil => rfl
  | cons h1 _ ih => rw [List.map_cons, List.map_cons, ih, h1.id]

theorem marked_ofFile {a a' : List (Sample α)} (h : List.Forall₂ Marked a a') (f : String) : List.Forall₂ Marked (ofFile f a) (ofFile f a') := by
  induction h with
  | nil => exact .nil
  | @cons s s' l l' h1 _ ih =>
    have he : ofFile f (s :: l) = ofFile f [s] ++ ofFile f l := ofFile_append f [s] l
    have he' : ofFile f (s' :: l') = ofFile f [s'] ++ ofFile f l' := ofFile_append f [s'] l'
    rw [he, he']
    refine marked_append ?_ ih
    unfold ofFile
    rw [List.filter_singleton, List.filter_singleton, h1.id]
    cases decide (s.id = f)
    · exact .nil
    · exact .cons h1 .nil

/-- The batches of a worker with drop_last are those without it up to the end of the shortest stream, the last of them marked. -/
theorem short_long {ss : List (List (Sample α))} (hne : ss ≠ []) {st : List (List (Sample α))} (h : forceLast (zipShort ss) = .ok st) :
    st ≠ [] ∧ ∀ k < st.length, ∃ u v, st[k]? = some u ∧ (zipLongest ss)[k]? = some v ∧ List.Forall₂ Marked v u ∧ (k + 1 < st.length → u = v) := by
  rcases List.eq_nil_or_concat (zipShort ss) with h0 | ⟨as, b, h0⟩
  · rw [h0] at h
    cases h
  · rw [h0, List.concat_eq_append, forceLast_snoc] at h
    cases h
    rw [List.concat_eq_append] at h0
    refine ⟨by simp, fun k hk => ?_⟩
    rw [List.length_append, List.length_singleton] at hk ⊢
    have hlong : ∀ c, (zipShort ss)[k]? = some c → (zipLongest ss)[k]? = some c := by
      intro c hc
      obtain ⟨h1, rfl⟩ := (zipShort_get _ _ _).1 hc
      obtain ⟨s, hs⟩ := List.exists_mem_of_ne_nil _ hne
      have h2 := minLen_le hs
      have h3 := le_maxLen hs
      unfold zipLongest
      rw [List.getElem?_map, List.getElem?_range (by omega), Option.map_some]
    by_cases hk' : k < as.length
    · have he : (zipShort ss)[k]? = some as[k] := by rw [h0, List.getElem?_append_left hk', List.getElem?_eq_getElem hk']
      exact ⟨as[k], as[k], by rw [List.getElem?_append_left hk', List.getElem?_eq_getElem hk'], hlong _ he, marked_refl _, fun _ => rfl⟩
    · have hk2 : k = as.length := by omega
      subst hk2
      exact ⟨b.map Sample.end, b, List.getElem?_concat_length, hlong _ (by rw [h0, List.getElem?_concat_length]), marked_end b, fun h => by omega⟩

theorem layer_short_long (S : String → List (Sample α)) (n : Nat) (hn : 0 < n) (os : List (List String)) (sts : List (List (List (Sample α))))
    (h : List.Forall₂ (fun o st => forceLast (zipShort (streamsOf S n o)) = .ok st) os sts) (k : Nat) (hk : ∀ st ∈ sts, k < st.length) :
    List.Forall₂ Marked (layer ((os.map (streamsOf S n)).map zipLongest) k).flatten (layer sts k).flatten ∧
      ((∀ st ∈ sts, k + 1 < st.length) → (layer sts k).flatten = (layer ((os.map (streamsOf S n)).map zipLongest) k).flatten) := by
  induction h with
  | nil => exact ⟨.nil, fun _ => rfl⟩
  | @cons o st os sts h1 _ ih =>
    obtain ⟨ih1, ih2⟩ := ih fun s hs => hk s (by simp [hs])
    have hne : streamsOf S n o ≠ [] := by
      intro h0
      have := congrArg List.length h0
      simp [streamsOf] at this
      omega
    obtain ⟨-, h2⟩ := short_long hne h1
    obtain ⟨u, v, h3, h4, h5, h6⟩ := h2 k (hk st (by simp))
    rw [List.map_cons, List.map_cons, layer_cons, layer_cons, h3, h4]
    refine ⟨?_, fun hlt => ?_⟩
    · simpa using marked_append h5 ih1
    · rw [List.flatten_append, List.flatten_append, ih2 fun s hs => hlt s (by simp [hs]), h6 (hlt st (by simp))]

/-- The batches of the loader with drop_last are the first ones of the loader without, except that samples of the last one may be marked as ends. -/
theorem merge_short_long (S : String → List (Sample α)) (n : Nat) (hn : 0 < n) (os : List (List String)) (hos : os ≠ []) (sts : List (List (List (Sample α))))
    (h : List.Forall₂ (fun o st => forceLast (zipShort (streamsOf S n o)) = .ok st) os sts) :
    ∃ A b b' rest, mergeWorkers true sts = A ++ [b'] ∧ mergeWorkers false ((os.map (streamsOf S n)).map zipLongest) = A ++ b :: rest ∧ List.Forall₂ Marked b b' := by
  have hst : sts ≠ [] := by
    intro h0
    subst h0
    cases h
    exact hos rfl
  have hpos : 0 < minLen sts := by
    refine le_minLen hst fun st hm => ?_
    obtain ⟨o, _, h1⟩ := forall2_mem h hm
    have hne : streamsOf S n o ≠ [] := by
      intro h0
      have := congrArg List.length h0
      simp [streamsOf] at this
      omega
    exact List.length_pos_of_ne_nil (short_long hne h1).1
  generalize hX : (os.map (streamsOf S n)).map zipLongest = X
  have key : ∀ k, k < minLen sts → ∃ c, (mergeWorkers false X)[k]? = some c ∧ (mergeWorkers true sts)[k]? = some (layer sts k).flatten ∧
      List.Forall₂ Marked c (layer sts k).flatten ∧ (k + 1 < minLen sts → (layer sts k).flatten = c) := by
    intro k hk
    obtain ⟨h1, h2⟩ := layer_short_long S n hn os sts h k fun st hm => Nat.lt_of_lt_of_le hk (minLen_le hm)
    rw [hX] at h1 h2
    have hk' : k < maxLen X := by
      obtain ⟨st, hm⟩ := List.exists_mem_of_ne_nil _ hst
      obtain ⟨o, ho, h3⟩ := forall2_mem h hm
      have hne : streamsOf S n o ≠ [] := by
        intro h0
        have := congrArg List.length h0
        simp [streamsOf] at this
        omega
      obtain ⟨u, v, _, h4, _⟩ := (short_long hne h3).2 k (Nat.lt_of_lt_of_le hk (minLen_le hm))
      have h5 := (List.getElem?_eq_some_iff.1 h4).1
      have h6 := le_maxLen (ss := X) (s := zipLongest (streamsOf S n o)) (by rw [← hX]; exact List.mem_map_of_mem (List.mem_map_of_mem ho))
      omega
    refine ⟨(layer X k).flatten, ?_, ?_, h1, fun hlt => h2 fun st hm => Nat.lt_of_lt_of_le hlt (minLen_le hm)⟩
    · unfold mergeWorkers zipLongest
      rw [if_neg (by decide), List.getElem?_map, List.getElem?_map, List.getElem?_range hk']
      rfl
    · unfold mergeWorkers zipShort
      rw [if_pos rfl, List.getElem?_map, List.getElem?_map, List.getElem?_range hk]
      rfl
  have hT : (mergeWorkers true sts).length = minLen sts := by
    unfold mergeWorkers zipShort
    simp
  generalize hM : minLen sts = M at *
  obtain ⟨m, rfl⟩ : ∃ m, M = m + 1 := ⟨M - 1, by omega⟩
  obtain ⟨b, h1, h2, h3, -⟩ := key m (by omega)
  obtain ⟨i1, e1⟩ := List.getElem?_eq_some_iff.1 h1
  obtain ⟨i2, e2⟩ := List.getElem?_eq_some_iff.1 h2
  refine ⟨(mergeWorkers false X).take m, b, (layer sts m).flatten, (mergeWorkers false X).drop (m + 1), ?_, ?_, h3⟩
  · have hpre : (mergeWorkers false X).take m = (mergeWorkers true sts).take m := by
      apply List.ext_getElem?
      intro k
      by_cases hk : k < m
      · obtain ⟨c, h4, h5, _, h6⟩ := key k (by omega)
        rw [List.getElem?_take_of_lt hk, List.getElem?_take_of_lt hk, h4, h5, h6 (by omega)]
      · rw [List.getElem?_eq_none (by rw [List.length_take]; omega), List.getElem?_eq_none (by rw [List.length_take]; omega)]
    rw [hpre]
    conv_lhs => rw [← List.take_append_drop m (mergeWorkers true sts), List.drop_eq_getElem_cons i2, e2, List.drop_eq_nil_of_le (by omega)]
  · conv_lhs => rw [← List.take_append_drop m (mergeWorkers false X), List.drop_eq_getElem_cons i1, e1]

/-- The datasets of the workers with drop_last, one by one. -/
theorem iterAll_drop (disk : Disk α) (d : Dataset α) (bs : Int) (shuffle : Bool) (S : String → List (Sample α)) : ∀ (parts orders : List (List String)),
    List.Forall₂ List.Perm orders parts → (∀ x ∈ parts.flatten, processData disk d x = .ok (S x)) → ∀ sts,
    iterAll disk (parts.map (workerDataset disk d bs shuffle true)) orders = .ok sts →
    List.Forall₂ (fun o st => forceLast (zipShort (streamsOf S bs.toNat o)) = .ok st) orders sts := by
  intro parts orders ho
  induction ho with
  | nil =>
    intro _ sts h
    cases h
    exact .nil
  | @cons o p os ps hop _ ih =>
    intro hf sts h
    have h1 : Dataset.iter disk (workerDataset disk d bs shuffle true p) o = forceLast (zipShort (streamsOf S bs.toNat o)) := by
      unfold Dataset.iter
      rw [getStreams_ok _ S]
      · rfl
      · intro x hx
        exact (processData_congr disk d _ rfl rfl x).trans (hf x (List.mem_flatten.2 ⟨p, by simp, hop.mem_iff.1 hx⟩))
    change (do let a ← Dataset.iter disk (workerDataset disk d bs shuffle true p) o; let b ← iterAll disk (ps.map (workerDataset disk d bs shuffle true)) os; Except.ok (a :: b)) = _ at h
    obtain ⟨a, h2, h⟩ := bind_inv h
    obtain ⟨b, h3, h⟩ := bind_inv h
    cases h
    exact .cons (by rw [← h1]; exact h2) (ih (fun x hx => hf x (by rw [List.flatten_cons]; exact List.mem_append_right _ hx)) b h3)

/-- What of one file is in the batches. -/
theorem marked_prefix (f : String) (F : List (Sample α)) (A rest : List (List (Sample α))) (b b' : List (Sample α)) (hL : ofFile f (A ++ b :: rest).flatten = F)
    (hm : List.Forall₂ Marked b b') (hn : (b.map Sample.id).Nodup) :
    ofFile f (A ++ [b']).flatten = [] ∨ ∃ P s s', P ++ [s] <+: F ∧ Marked s s' ∧ ofFile f (A ++ [b']).flatten = P ++ [s'] := by
  have h1 : F = ofFile f A.flatten ++ (ofFile f b ++ ofFile f rest.flatten) := by
    rw [← hL, List.flatten_append, List.flatten_cons, ofFile_append, ofFile_append]
  have h2 : ofFile f (A ++ [b']).flatten = ofFile f A.flatten ++ ofFile f b' := by
    rw [List.flatten_append, ofFile_append, List.flatten_cons, List.flatten_nil, List.append_nil]
  have h3 := marked_ofFile hm f
  have hle : (ofFile f b).length ≤ 1 := by
    have h4 : ((ofFile f b).map Sample.id).Nodup := (List.filter_sublist.map _).nodup hn
    have h5 : ∀ s ∈ ofFile f b, s.id = f := fun s hs => by simpa using (List.mem_filter.1 hs).2
    match hb : ofFile f b with
    | [] => simp
    | [_] => simp
    | s :: t :: l =>
      rw [hb] at h4 h5
      rw [List.map_cons, List.map_cons, h5 s (by simp), h5 t (by simp)] at h4
      simp at h4
  rw [h2]
  match hb : ofFile f b, hb' : ofFile f b', h3, hle with
  | [], [], _, _ =>
    rw [List.append_nil]
    rcases List.eq_nil_or_concat (ofFile f A.flatten) with h0 | ⟨P, s, h0⟩
    · exact .inl h0
    · rw [List.concat_eq_append] at h0
      exact .inr ⟨P, s, s, ⟨ofFile f rest.flatten, by rw [h1, hb, h0]; rfl⟩, .inl rfl, h0⟩
  | [s], [s'], .cons h4 _, _ => exact .inr ⟨ofFile f A.flatten, s, s', ⟨ofFile f rest.flatten, by rw [h1, hb, List.append_assoc]⟩, h4, rfl⟩
  | _ :: _ :: _, _, _, h => simp at h

/-- The samples of the loader's batches with drop_last. -/
theorem drop_files (disk : Disk α) (cfg : LoaderCfg) (d : Dataset α) (hs : Splittable d) (hdrop : cfg.dropLast = true) (hover : cfg.overlapping = true) (hn : d.files.Nodup)
    (S : String → List (Sample α)) (hf : ∀ x ∈ d.files, processData disk d x = .ok (S x)) (hS : ∀ x ∈ d.files, WholeFile x (S x))
    (order : List Nat) (ho : order.Perm (List.range d.files.length)) (orders : List (List String) → List (List String))
    (hor : ∀ ls, List.Forall₂ List.Perm (orders ls) ls) (fuel : Nat) (out : List (List (Sample α))) (e : Ended) (h : loader disk cfg d order orders fuel = .ok (out, e)) :
    (∀ f ∈ d.files, ofFile f out.flatten = [] ∨ ∃ P s s', P ++ [s] <+: S f ∧ Marked s s' ∧ ofFile f out.flatten = P ++ [s']) ∧
      (∀ b ∈ out, b ≠ [] ∧ (b.map Sample.id).Nodup) ∧ (∀ s ∈ out.flatten, s.id ∈ d.files) ∧ out ≠ [] ∧ (cfg.numWorkers ≤ 1 → AllEnded out.flatten) := by
  unfold loader at h
  obtain ⟨ds, h1, h⟩ := bind_inv h
  obtain ⟨sts, h3, h⟩ := bind_inv h
  obtain ⟨hw0, hdvd, hlen, hds⟩ := split_inv disk d _ _ _ _ _ _ h1
  injection h with hl0
  generalize hw : max 1 cfg.numWorkers = w at *
  have hpos : 0 < cfg.batchSize / w := by
    cases ds with
    | nil => simp at hlen; omega
    | cons d' ds => exact (hds d' (by simp)).2.1
  have hb : 0 < cfg.batchSize := by
    have := Int.ediv_mul_cancel hdvd
    have := Int.mul_pos hpos hw0
    omega
  obtain ⟨parts, hplen, hp2, hp3⟩ := split_ok disk d hs w cfg.batchSize hw0 hb (Int.emod_eq_zero_of_dvd hdvd) cfg.shuffle cfg.dropLast order ho
  rw [h1, Except.ok.injEq] at hp3
  have hpl : parts.length = w.toNat := by rw [← hlen, hp3, List.length_map]
  rw [hp3, hdrop] at h3
  have hfiles : (parts.map (workerDataset disk d (cfg.batchSize / w) cfg.shuffle true)).map Dataset.files = parts := by
    rw [List.map_map]
    have : (Dataset.files ∘ workerDataset disk d (cfg.batchSize / w) cfg.shuffle true) = id := by funext p; rfl
    rw [this, List.map_id]
  rw [hfiles] at h3
  have hf' : ∀ x ∈ parts.flatten, processData disk d x = .ok (S x) := fun x hx => hf x (hp2.mem_iff.1 hx)
  have hS' : ∀ x ∈ parts.flatten, WholeFile x (S x) := fun x hx => hS x (hp2.mem_iff.1 hx)
  have hn' : parts.flatten.Nodup := hp2.nodup_iff.2 hn
  have hst := iterAll_drop disk d _ cfg.shuffle S parts (orders parts) (hor parts) hf' sts h3
  have hout : out = mergeWorkers true sts := by
    unfold loaderBatches at hl0
    rw [hover, hdrop] at hl0
    simpa using (congrArg Prod.fst hl0).symm
  obtain ⟨streams, h4, h5⟩ := iterAll_ok disk d (cfg.batchSize / w) hpos cfg.shuffle S parts (orders parts) (hor parts) hn' hf' hS'
  have h6 := iterAll_streams disk d (cfg.batchSize / w) cfg.shuffle S parts (orders parts) (hor parts) hf'
  rw [h4, Except.ok.injEq] at h6
  obtain ⟨m1, m2, m3⟩ := merge_once S parts streams hn' h5
  have hos : orders parts ≠ [] := by
    intro h0
    have h7 := (hor parts).length_eq
    rw [h0, hpl] at h7
    simp at h7
    omega
  obtain ⟨A, b, b', rest, hA, hB, hM⟩ := merge_short_long S (cfg.batchSize / w).toNat (by omega) (orders parts) hos sts hst
  rw [h6, hB] at m1 m2 m3
  rw [← hout] at hA
  have hids : ∀ c ∈ A ++ [b'], ∃ c' ∈ A ++ b :: rest, c.map Sample.id = c'.map Sample.id := by
    intro c hc
    rcases List.mem_append.1 hc with hc | hc
    · exact ⟨c, List.mem_append_left _ hc, rfl⟩
    · rw [List.mem_singleton.1 hc]
      exact ⟨b, by simp, marked_ids hM⟩
  refine ⟨fun f hff => ?_, ?_, ?_, ?_, ?_⟩
  · rw [hA]
    exact marked_prefix f (S f) A rest b b' (m1 f (hp2.mem_iff.2 hff)) hM (m3 b (by simp)).2
  · intro c hc
    rw [hA] at hc
    obtain ⟨c', hc', he⟩ := hids c hc
    refine ⟨fun h0 => (m3 c' hc').1 ?_, he ▸ (m3 c' hc').2⟩
    subst h0
    exact List.map_eq_nil_iff.1 he.symm
  · intro s hsm
    rw [hA] at hsm
    obtain ⟨c, hc, hsc⟩ := List.mem_flatten.1 hsm
    obtain ⟨c', hc', he⟩ := hids c hc
    have : s.id ∈ c'.map Sample.id := he ▸ List.mem_map_of_mem hsc
    obtain ⟨t, ht, hte⟩ := List.mem_map.1 this
    rw [← hte]
    exact hp2.mem_iff.1 (m2 t (List.mem_flatten.2 ⟨c', hc', ht⟩))
  · rw [hA]
    simp
  · intro h1w
    have hl1 : sts.length = 1 := by
      rw [← hst.length_eq, (hor parts).length_eq, hpl]
      omega
    obtain ⟨st, rfl⟩ := List.length_eq_one_iff.1 hl1
    rw [hout]
    refine C77_partial [st] st.length (by simp) fun st' hst' => ?_
    rw [List.mem_singleton.1 hst']
    obtain ⟨o, hom, hso⟩ := forall2_mem hst (List.mem_singleton.2 rfl)
    obtain ⟨p, hp, hop⟩ : ∃ p ∈ parts, o.Perm p := by
      have h8 := hor parts
      generalize orders parts = os at h8 hom
      clear * - h8 hom
      induction h8 with
      | nil => cases hom
      | @cons o' p' os ps h _ ih =>
        rcases List.mem_cons.1 hom with rfl | hom
        · exact ⟨p', by simp, h⟩
        · obtain ⟨p, hp, h⟩ := ih hom
          exact ⟨p, by simp [hp], h⟩
    have hg : getStreams (fun x => .ok (S x)) (cfg.batchSize / w).toNat true o = .ok st := by
      rw [getStreams_ok _ S _ _ _ fun _ _ => rfl, if_pos rfl]
      exact hso
    exact (C76_full_and_ended _ S _ o (fun _ _ => rfl) (fun x hx => hS' x (List.mem_flatten.2 ⟨p, hp, hop.mem_iff.1 hx⟩)) st hg).2.2

/-- The samples have data, at least as much as their length. -/
theorem drop_lengths {d : Dataset α} {S : String → List (Sample α)} {out : List (List (Sample α))} (hlen : ∀ x ∈ d.files, ∀ s ∈ S x, 0 < s.length ∧ s.length ≤ s.data.length)
    (g1 : ∀ f ∈ d.files, ofFile f out.flatten = [] ∨ ∃ P s s', P ++ [s] <+: S f ∧ Marked s s' ∧ ofFile f out.flatten = P ++ [s']) (g3 : ∀ s ∈ out.flatten, s.id ∈ d.files) :
    ∀ b ∈ out, ∀ s ∈ b, 0 < s.length ∧ s.length ≤ s.data.length := by
  intro b hb s hsb
  have hs' : s ∈ out.flatten := List.mem_flatten.2 ⟨b, hb, hsb⟩
  have hx := g3 s hs'
  have hmem : s ∈ ofFile s.id out.flatten := List.mem_filter.2 ⟨hs', by simp⟩
  rcases g1 s.id hx with h0 | ⟨P, t, t', hp, hm, he⟩
  · rw [h0] at hmem
    cases hmem
  · rw [he] at hmem
    have ht := hlen s.id hx t (hp.subset (by simp))
    rcases List.mem_append.1 hmem with h1 | h1
    · exact hlen s.id hx s (hp.subset (List.mem_append_left _ h1))
    · rw [List.mem_singleton.1 h1]
      rcases hm with rfl | rfl <;> exact ht

/-- Batches that hold the first chunks of files, collated. -/
theorem drop_schedule [Zero α] {d : Dataset α} {S : String → List (Sample α)} {out : List (List (Sample α))} (hS : ∀ x ∈ d.files, WholeFile x (S x))
    (hlen : ∀ x ∈ d.files, ∀ s ∈ S x, 0 < s.length ∧ s.length ≤ s.data.length)
    (g1 : ∀ f ∈ d.files, ofFile f out.flatten = [] ∨ ∃ P s s', P ++ [s] <+: S f ∧ Marked s s' ∧ ofFile f out.flatten = P ++ [s'])
    (g2 : ∀ b ∈ out, b ≠ [] ∧ (b.map Sample.id).Nodup) (g3 : ∀ s ∈ out.flatten, s.id ∈ d.files) (g4 : out ≠ []) (one : Prop) (g5 : one → AllEnded out.flatten) :
    ∃ xs, collateAll out = .ok xs ∧ xs.length = out.length ∧ xs ≠ [] ∧
      (∀ x ∈ xs, BatchOK (unpack x) ∧ ∀ c ∈ unpack x, c.frames ≠ []) ∧
      (∀ f ∈ d.files, Conv.chunksOf f (xs.map unpack) = [] ∨
        ((Complete (Conv.chunksOf f (xs.map unpack)) ∨ (¬ one ∧ Conv.Open (Conv.chunksOf f (xs.map unpack)))) ∧
          ∃ P s e, P ++ [s] <+: S f ∧ (s.eos = true → e = true) ∧
            Conv.chunksOf f (xs.map unpack) = (P.map fun s => ⟨f, s.sos, s.eos, some (s.chunkIndex : Int), s.data.take s.length⟩) ++
              [⟨f, s.sos, e, some (s.chunkIndex : Int), s.data.take s.length⟩])) ∧
      ∀ i, i ∉ d.files → Conv.chunksOf i (xs.map unpack) = [] := by
  have hl := drop_lengths hlen g1 g3
  obtain ⟨xs, h5, h6⟩ := collateAll_ok out (fun b hb => (g2 b hb).1) (fun b hb s hs => (hl b hb s hs).2)
  have hch : ∀ i, Conv.chunksOf i (xs.map unpack) = (ofFile i out.flatten).map Sample.chunk := by
    intro i
    rw [h6]
    exact chunksOf_collated out (fun b hb => (g2 b hb).2) i
  have hxl : xs.length = out.length := by simpa using congrArg List.length h6
  refine ⟨xs, h5, hxl, ?_, ?_, ?_, ?_⟩
  · intro h0
    rw [h0] at hxl
    exact g4 (List.length_eq_zero_iff.1 hxl.symm)
  · intro x hx
    have hu : unpack x ∈ xs.map unpack := List.mem_map_of_mem hx
    rw [h6] at hu
    obtain ⟨b, hb, hu⟩ := List.mem_map.1 hu
    have hperm : (sortByLength b).Perm b := List.mergeSort_perm _ _
    have hfr : ∀ c ∈ unpack x, c.frames ≠ [] := by
      intro c hc
      rw [← hu] at hc
      obtain ⟨s, hs, rfl⟩ := List.mem_map.1 hc
      have := hl b hb s (hperm.mem_iff.1 hs)
      unfold Sample.chunk
      intro h0
      have h0 := congrArg List.length h0
      rw [List.length_take, List.length_nil] at h0
      omega
    refine ⟨⟨?_, ?_, .inr fun c hc h0 => absurd h0 (hfr c hc)⟩, hfr⟩
    · rw [← hu]
      intro h0
      rw [List.map_eq_nil_iff] at h0
      exact (g2 b hb).1 (List.Perm.nil_eq (h0 ▸ hperm.symm).symm).symm
    · rw [← hu, List.map_map]
      exact (hperm.map _).nodup_iff.2 (g2 b hb).2
  · intro f hff
    have he := hch f
    obtain ⟨w1, w2⟩ := hS f hff
    rcases g1 f hff with h0 | ⟨P, s, s', hp, hm, h0⟩
    · exact .inl (by rw [he, h0]; rfl)
    · rw [h0] at he
      -- the samples of the file by position
      have hget : ∀ k t, (P ++ [s])[k]? = some t → t.id = f ∧ (t.sos = true ↔ k = 0) ∧ (t.eos = true ↔ k + 1 = (S f).length) := by
        intro k t hk
        refine w2 k t ?_
        obtain ⟨r, hr⟩ := hp
        have hk' := (List.getElem?_eq_some_iff.1 hk).1
        rw [← hr, List.getElem?_append_left hk']
        exact hk
      have hple := hp.length_le
      rw [List.length_append, List.length_singleton] at hple
      have hP : ∀ k t, P[k]? = some t → t.id = f ∧ (t.sos = true ↔ k = 0) ∧ t.eos = false := by
        intro k t hk
        have hk' := (List.getElem?_eq_some_iff.1 hk).1
        obtain ⟨a1, a2, a3⟩ := hget k t (by rw [List.getElem?_append_left hk']; exact hk)
        refine ⟨a1, a2, ?_⟩
        rw [Bool.eq_false_iff]
        intro h1
        have := a3.1 h1
        omega
      obtain ⟨s1, s2, s3⟩ := hget P.length s List.getElem?_concat_length
      have hs1 : s'.id = f := hm.id.trans s1
      have hs2 : s'.sos = s.sos := by rcases hm with rfl | rfl <;> rfl
      have hs3 : s'.chunkIndex = s.chunkIndex ∧ s'.data = s.data ∧ s'.length = s.length := by rcases hm with rfl | rfl <;> exact ⟨rfl, rfl, rfl⟩
      have hs4 : s.eos = true → s'.eos = true := by
        intro h1
        rcases hm with rfl | rfl
        · exact h1
        · rfl
      have hstart : StartsOnce ((P ++ [s']).map Sample.chunk) := by
        intro k c hk
        rw [List.getElem?_map, Option.map_eq_some_iff] at hk
        obtain ⟨t, hk, rfl⟩ := hk
        by_cases hk' : k < P.length
        · rw [List.getElem?_append_left hk'] at hk
          exact (hP k t hk).2.1
        · have hkl := (List.getElem?_eq_some_iff.1 hk).1
          rw [List.length_append, List.length_singleton] at hkl
          have : k = P.length := by omega
          subst this
          rw [List.getElem?_concat_length, Option.some.injEq] at hk
          subst hk
          change s'.sos = true ↔ _
          rw [hs2]
          exact s2
      refine .inr ⟨?_, P, s, s'.eos, hp, hs4, ?_⟩
      · rw [he]
        cases heos : s'.eos with
        | true =>
          refine .inl ⟨by simp, hstart, fun k c hk => ?_⟩
          rw [List.getElem?_map, Option.map_eq_some_iff] at hk
          obtain ⟨t, hk, rfl⟩ := hk
          have hkl := (List.getElem?_eq_some_iff.1 hk).1
          rw [List.length_append, List.length_singleton] at hkl
          rw [List.length_map, List.length_append, List.length_singleton]
          by_cases hk' : k < P.length
          · rw [List.getElem?_append_left hk'] at hk
            have h9 : (Sample.chunk t).eos = false := (hP k t hk).2.2
            rw [h9]
            simp
            omega
          · have : k = P.length := by omega
            subst this
            rw [List.getElem?_concat_length, Option.some.injEq] at hk
            subst hk
            have h9 : (Sample.chunk s').eos = true := heos
            rw [h9]
            simp
        | false =>
          have hno : ∀ t ∈ P ++ [s'], t.eos = false := by
            intro t ht
            rcases List.mem_append.1 ht with ht | ht
            · obtain ⟨k, hk⟩ := List.mem_iff_getElem?.1 ht
              exact (hP k t hk).2.2
            · rw [List.mem_singleton.1 ht]
              exact heos
          refine .inr ⟨?_, by simp, hstart, fun c hc => ?_⟩
          · intro h1w
            have hmem : s' ∈ ofFile f out.flatten := by rw [h0]; simp
            obtain ⟨t, ht, hid, hte⟩ := g5 h1w s' (List.mem_filter.1 hmem).1
            have htm : t ∈ ofFile f out.flatten := List.mem_filter.2 ⟨ht, by simp [hid, hs1]⟩
            rw [h0] at htm
            rw [hno t htm] at hte
            cases hte
          · obtain ⟨t, ht, rfl⟩ := List.mem_map.1 hc
            exact hno t ht
      · rw [he, List.map_append]
        congr 1
        · apply List.map_congr_left
          intro t ht
          obtain ⟨k, hk⟩ := List.mem_iff_getElem?.1 ht
          rw [← (hP k t hk).1]
          rfl
        · rw [List.map_cons, List.map_nil]
          unfold Sample.chunk
          rw [hs1, hs2, hs3.1, hs3.2.1, hs3.2.2]
  · intro i hi
    rw [hch i, ofFile_none, List.map_nil]
    intro s hs h
    exact hi (h ▸ g3 s hs)

/-- **C160**, with drop_last, whatever the workers, batch size, shuffling and order: the loader's batches, collated, are a valid schedule of streams. Every batch holds no stream
twice and no empty chunk; what is delivered of a file are its first chunks in order, with nothing changed except that the last of them may be marked as the end; so each stream is absent,
complete or in progress. With one worker none is left in progress. -/
theorem C160_drop_last [Zero α] (disk : Disk α) (cfg : LoaderCfg) (d : Dataset α) (hs : Splittable d) (hdrop : cfg.dropLast = true) (hover : cfg.overlapping = true) (hn : d.files.Nodup)
    (S : String → List (Sample α)) (hf : ∀ x ∈ d.files, processData disk d x = .ok (S x)) (hS : ∀ x ∈ d.files, WholeFile x (S x))
    (hlen : ∀ x ∈ d.files, ∀ s ∈ S x, 0 < s.length ∧ s.length ≤ s.data.length)
    (order : List Nat) (ho : order.Perm (List.range d.files.length)) (orders : List (List String) → List (List String))
    (hor : ∀ ls, List.Forall₂ List.Perm (orders ls) ls) (fuel : Nat) (out : List (List (Sample α))) (e : Ended) (h : loader disk cfg d order orders fuel = .ok (out, e)) :
    ∃ xs, collateAll out = .ok xs ∧ xs.length = out.length ∧ xs ≠ [] ∧
      (∀ x ∈ xs, BatchOK (unpack x) ∧ ∀ c ∈ unpack x, c.frames ≠ []) ∧
      (∀ f ∈ d.files, Conv.chunksOf f (xs.map unpack) = [] ∨
        ((Complete (Conv.chunksOf f (xs.map unpack)) ∨ (1 < cfg.numWorkers ∧ Conv.Open (Conv.chunksOf f (xs.map unpack)))) ∧
          ∃ P s e, P ++ [s] <+: S f ∧ (s.eos = true → e = true) ∧
            Conv.chunksOf f (xs.map unpack) = (P.map fun s => ⟨f, s.sos, s.eos, some (s.chunkIndex : Int), s.data.take s.length⟩) ++
              [⟨f, s.sos, e, some (s.chunkIndex : Int), s.data.take s.length⟩])) ∧
      ∀ i, i ∉ d.files → Conv.chunksOf i (xs.map unpack) = [] := by
  obtain ⟨g1, g2, g3, g4, g5⟩ := drop_files disk cfg d hs hdrop hover hn S hf hS order ho orders hor fuel out e h
  obtain ⟨xs, k1, k2, k3, k4, k5, k6⟩ := drop_schedule hS hlen g1 g2 g3 g4 (cfg.numWorkers ≤ 1) g5
  refine ⟨xs, k1, k2, k3, k4, fun f hff => ?_, k6⟩
  rcases k5 f hff with h0 | ⟨h0 | ⟨h0, h1⟩, h2⟩
  · exact .inl h0
  · exact .inr ⟨.inl h0, h2⟩
  · exact .inr ⟨.inr ⟨by omega, h1⟩, h2⟩

/-- **C161 with drop_last**, whatever the workers: whenever no call of a convolution as in `C161_given_partial` raises, its outputs for every file of which anything is delivered, be it left without an end (`C77_false`) or not, are the offline outputs of the
frames delivered: those given for the first `n` chunks of the file. Missing: the frames of later chunks and convolutions with padding, as there. -/
theorem C161_drop_partial [Zero α] (disk : Disk α) (cfg : LoaderCfg) (d : Dataset α) (hs : Splittable d) (hdrop : cfg.dropLast = true) (hover : cfg.overlapping = true) (hn : d.files.Nodup)
    (audio : String → List α) (size : String → Nat) (hL : ∀ f ∈ d.files, audio f ≠ []) (hsize : ∀ f ∈ d.files, 0 < size f)
    (hf : ∀ f ∈ d.files, processData disk d f = chunkSamples (size f : Int) f (audio f))
    (order : List Nat) (ho : order.Perm (List.range d.files.length)) (orders : List (List String) → List (List String))
    (hor : ∀ ls, List.Forall₂ List.Perm (orders ls) ls) (fuel : Nat) (out : List (List (Sample α))) (e : Ended) (h : loader disk cfg d order orders fuel = .ok (out, e)) :
    ∃ xs, collateAll out = .ok xs ∧
      ∀ (β : Type) [Zero β] (c : Cfg) (g : List α → β), c.Valid → c.stride ≤ c.kw → c.padding = 0 →
        ∀ ys buf, run c g (fun _ => none) xs = .ok (ys, buf) → ∀ f ∈ d.files, (∃ s ∈ out.flatten, s.id = f) →
          ∃ n, 0 < n ∧ n ≤ ((audio f).length + size f - 1) / size f ∧ n = (ofFile f out.flatten).length ∧
            collected f ys = offline c g ((List.range n).flatMap fun k => (audio f).take (min (size f) ((audio f).length - k * size f))) := by
  classical
  have hex : ∀ f, ∃ ss : List (Sample α), f ∈ d.files → processData disk d f = .ok ss ∧ ss.length = ((audio f).length + size f - 1) / size f ∧ WholeFile f ss ∧
      (∀ s ∈ ss, s.data = audio f) ∧
      ∀ k s, ss[k]? = some s → s.length = min (size f) ((audio f).length - k * size f) ∧ 0 < s.length := by
    intro f
    by_cases hm : f ∈ d.files
    · obtain ⟨ss, h1, h2, h3, -, h5⟩ := C73_tiles (size f) (hsize f hm) f (audio f) (hL f hm)
      refine ⟨ss, fun _ => ⟨by rw [hf f hm, h1], h2, h3, (C74_partial (size f) (hsize f hm) f (audio f) ss h1).1, ?_⟩⟩
      intro k s hk
      exact ⟨(h5 k s hk).2.2.1, (h5 k s hk).2.2.2.1⟩
    · exact ⟨[], fun h => absurd h hm⟩
  choose S hS using hex
  have hlen : ∀ x ∈ d.files, ∀ s ∈ S x, 0 < s.length ∧ s.length ≤ s.data.length := by
    intro x hx s hs
    obtain ⟨-, -, -, h4, h5⟩ := hS x hx
    obtain ⟨k, hk⟩ := List.mem_iff_getElem?.1 hs
    have := h5 k s hk
    rw [h4 s hs]
    omega
  have hf1 := fun x hx => (hS x hx).1
  have hf2 := fun x hx => (hS x hx).2.2.1
  obtain ⟨g1, g2, g3, -, -⟩ := drop_files disk cfg d hs hdrop hover hn S hf1 hf2 order ho orders hor fuel out e h
  obtain ⟨xs, h2, -, -, h4, h5, h6⟩ := C160_drop_last disk cfg d hs hdrop hover hn S hf1 hf2 hlen order ho orders hor fuel out e h
  have hch : ∀ i, Conv.chunksOf i (xs.map unpack) = (ofFile i out.flatten).map Sample.chunk := by
    intro i
    obtain ⟨xs', h7, h8⟩ := collateAll_ok out (fun b hb => (g2 b hb).1) (fun b hb s hs => (drop_lengths hlen g1 g3 b hb s hs).2)
    rw [h2, Except.ok.injEq] at h7
    rw [h7, h8]
    exact chunksOf_collated out (fun b hb => (g2 b hb).2) i
  refine ⟨xs, h2, ?_⟩
  intro β _ c g hv hst hp ys buf hrun f hm ⟨s0, hs0, hid⟩
  have hne : ofFile f out.flatten ≠ [] := by
    intro h0
    have : s0 ∈ ofFile f out.flatten := List.mem_filter.2 ⟨hs0, by simp [hid]⟩
    rw [h0] at this
    cases this
  obtain hz | ⟨hcomp, P, s, e', hpre, -, heq⟩ := h5 f hm
  · rw [hch f, List.map_eq_nil_iff] at hz
    exact absurd hz hne
  have hcomp : Complete (Conv.chunksOf f (xs.map unpack)) ∨ Conv.Open (Conv.chunksOf f (xs.map unpack)) := hcomp.imp_right (·.2)
  obtain ⟨-, k2, -, k4, k5⟩ := hS f hm
  have hnl : (ofFile f out.flatten).length = (P ++ [s]).length := by
    have := congrArg List.length (heq.symm.trans (hch f))
    simpa using this.symm
  refine ⟨(ofFile f out.flatten).length, List.length_pos_of_ne_nil hne, ?_, rfl, ?_⟩
  · rw [hnl, ← k2]
    exact hpre.length_le
  have hcol : collected f xs = (List.range (P ++ [s]).length).flatMap fun k => (audio f).take (min (size f) ((audio f).length - k * size f)) := by
    unfold collected allFrames
    have hmap : (Conv.chunksOf f (xs.map unpack)).flatMap Chunk.frames = (P ++ [s]).flatMap fun s => s.data.take s.length := by
      rw [heq, List.flatMap_append, List.flatMap_append, List.flatMap_map]
      rfl
    refine hmap.trans ?_
    apply flatMap_range
    intro k t hk
    obtain ⟨r, hr⟩ := hpre
    have hk' := (List.getElem?_eq_some_iff.1 hk).1
    have hkS : (S f)[k]? = some t := by rw [← hr, List.getElem?_append_left hk']; exact hk
    rw [k4 t (List.mem_of_getElem? hkS), (k5 k t hkS).1]
  rw [hnl, ← hcol]
  refine run_loose c hv hst hp g xs ?_ ?_ ys buf hrun f hcomp
  · intro x hx
    obtain ⟨b, hb, hc⟩ := collateAll_mem h2 x hx
    exact ⟨shaped_collateST b (g2 b hb).1 (fun s hs => (drop_lengths hlen g1 g3 b hb s hs).2) x hc, (h4 x hx).1⟩
  · intro i
    by_cases hm : i ∈ d.files
    · rcases h5 i hm with h7 | ⟨h7 | ⟨-, h7⟩, -⟩
      · rw [h7]
        exact ⟨[], [], rfl, by simp, .inl rfl⟩
      · exact ⟨[Conv.chunksOf i (xs.map unpack)], [], by simp, by simpa using h7, .inl rfl⟩
      · exact ⟨[], Conv.chunksOf i (xs.map unpack), by simp, by simp, .inr h7⟩
    · rw [h6 i hm]
      exact ⟨[], [], rfl, by simp, .inl rfl⟩

/-- Two files of three and two frames in chunks of one frame. -/
def exCutTwo : Dataset Nat := ⟨["a", "c"], 1, none, none, 2, false, true, [("a", 3, 1), ("c", 2, 1)], [("a", 3), ("c", 2)]⟩

-- one worker: the third chunk of `a` is dropped, and the second marked as its end
example : Splittable exCutTwo ∧ exCutTwo.files.Nodup := ⟨⟨by decide +kernel, by decide, Or.inr (by decide)⟩, by decide⟩
example : ∀ f ∈ exCutTwo.files, processData exLoadDisk exCutTwo f = chunkSamples ((1 : Nat) : Int) f (exLoadDisk f).1 ∧ (exLoadDisk f).1 ≠ [] := by decide +kernel
example : (loader exLoadDisk ⟨2, 1, false, true, true⟩ exCutTwo [1, 0] id 0).map (fun r => (r.1.map fun b => b.map fun s => (s.id, s.eos, s.chunkIndex), r.2)) =
    .ok ([[("c", false, 0), ("a", false, 0)], [("c", true, 1), ("a", true, 1)]], .returned) := by decide +kernel
-- two workers: `a` is left in progress
example : (loader exLoadDisk ⟨2, 2, false, true, true⟩ exCutTwo [1, 0] id 0).map (fun r => (r.1.map fun b => b.map fun s => (s.id, s.eos, s.chunkIndex), r.2)) =
    .ok ([[("c", false, 0), ("a", false, 0)], [("c", true, 1), ("a", false, 1)]], .returned) := by decide +kernel

end
end DS.Data
