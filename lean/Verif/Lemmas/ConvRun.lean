import Verif.Lemmas.ConvStep2
/-! One call, and sequences of calls, of an online convolution on packed batches. -/

namespace DS.Conv
open Meta

section
variable {α β : Type} [Zero α] [Zero β]

theorem full_set (c : Cfg) (buf : Buf α) (b : Bool) (x : Chunk α) : full c (x.set b (pre buf x)) = inp c buf x := by
  unfold full inp pre Chunk.set
  cases x.sos <;> simp

theorem inp_length (c : Cfg) (buf : Buf α) (x : Chunk α) : (inp c buf x).length =
    (if x.sos then c.padding else ((buf x.id).getD []).length) + x.frames.length + (if x.eos then c.padding else 0) := by
  unfold inp
  cases x.sos <;> cases x.eos <;> simp [zeros_length] <;> omega

theorem items_set (c : Cfg) (buf : Buf α) (b : Bool) (cs : List (Chunk α)) :
    items c (full c) (cs.map fun x => x.set b (pre buf x)) = items c (inp c buf) cs := by
  unfold items
  rw [List.filterMap_map]
  congr 2
  funext x
  simp only [Function.comp_apply, full_set]
  rfl

theorem pre_le {c : Cfg} {buf : Buf α} {w : Nat} {cs : List (Chunk α)} (hne : cs ≠ []) (h : PreOK c buf w cs) (hv : c.Valid) :
    (∀ x ∈ cs, (pre buf x).length ≤ preWidth c buf w cs) ∧ (Tight w cs → ∃ x ∈ cs, (pre buf x).length = preWidth c buf w cs) := by
  have hkw := kw_pos c hv
  unfold preWidth
  by_cases hr : ragged c buf cs = true
  · rw [if_pos hr]
    have := max_nat_spec cs (pre buf) hne
    exact ⟨this.1, fun _ => this.2⟩
  · rw [if_neg hr]
    by_cases hs : stacked c buf cs = true
    · rw [if_pos hs]
      unfold stacked at hs
      rw [Bool.and_eq_true] at hs
      have hlen : ∀ x ∈ cs, ((buf x.id).getD []).length = bufLen ((cs.map fun x => buf x.id).head?.getD none) := by
        intro x hx
        have := List.all_eq_true.1 hs.2 (buf x.id) (List.mem_map_of_mem (f := fun x : Chunk α => buf x.id) hx)
        simpa [bufLen] using this
      refine ⟨?_, ?_⟩
      · intro x hx
        rw [pre_eq h x hx, List.length_append, hlen x hx]
        have := h.1 x hx
        omega
      · rintro ⟨x, hx, hxw⟩
        refine ⟨x, hx, ?_⟩
        rw [pre_eq h x hx, List.length_append, hlen x hx]
        omega
    · rw [if_neg hs]
      have hpre : ∀ x ∈ cs, pre buf x = x.frames := by
        intro x hx
        unfold pre
        by_cases hk : c.kw > 1
        · have : allSos cs = true := by
            by_contra hc
            have hc' : allSos cs = false := by simpa using hc
            unfold ragged at hr
            unfold stacked at hs
            rw [hc'] at hr hs
            cases hsame : sameLengths (cs.map fun x => buf x.id) <;> simp [hk, hsame] at hr hs
          have := List.all_eq_true.1 this x hx
          rw [if_pos this]; rfl
        · rw [h.2.2.1 (by omega) x hx]; simp
      refine ⟨fun x hx => by rw [hpre x hx]; exact h.1 x hx, ?_⟩
      rintro ⟨x, hx, hxw⟩
      exact ⟨x, hx, by rw [hpre x hx]; exact hxw⟩

theorem allSos_set {γ : Type} (cs : List (Chunk α)) (b : Bool) (f : Chunk α → List γ) : allSos (cs.map fun x => x.set b (f x)) = allSos cs := by
  simp [allSos, List.all_map, Function.comp_def, Chunk.set]
theorem allEos_set {γ : Type} (cs : List (Chunk α)) (b : Bool) (f : Chunk α → List γ) : allEos (cs.map fun x => x.set b (f x)) = allEos cs := by
  simp [allEos, List.all_map, Function.comp_def, Chunk.set]

/-- One call: exact behaviour. -/
theorem forward_pk (c : Cfg) (hv : c.Valid) (g : List α → β) (buf : Buf α) (b : Bool) (w : Nat) (cs : List (Chunk α)) (hne : cs ≠ [])
    (h : PreOK c buf w cs) (hwidth : WidthOK c w cs) :
    ∃ w', (∀ x ∈ cs, (inp c buf x).length ≤ w') ∧ (Tight w cs → ∃ x ∈ cs, (inp c buf x).length = w') ∧
      forward c g buf (pk b w cs) =
        if stacked c buf cs && cs.any (fun x => (buf x.id).isNone) then .error .typeError
        else if w' < c.kw then .error .runtimeError
        else
          let y : ST β := pk (b && !(ragged c buf cs)) (nOut c w') (cs.map fun x => x.set (b && !(ragged c buf cs)) (conv c g (inp c buf x)))
          .ok { y := y, buf := postHook buf y.md (items c (inp c buf) cs), caller := if !(decide (c.kw > 1) && !(allSos cs)) then y.md else (pk b w cs).md } := by
  have hpl := pre_le hne h hv
  have hwid : WidthOK c (preWidth c buf w cs) (cs.map fun x => x.set (b && !(ragged c buf cs)) (pre buf x)) := by
    unfold WidthOK at hwidth ⊢
    rw [allSos_set, allEos_set]
    rcases hwidth with h1 | h1 | h1 | h1
    · exact .inl h1
    · exact .inr (.inl h1)
    · exact .inr (.inr (.inl h1))
    · cases hS : allSos cs with
      | false => exact .inr (.inl rfl)
      | true =>
        obtain ⟨x, hx, hxw⟩ := h1
        have hw' : preWidth c buf w cs = w := by
          unfold preWidth ragged stacked
          rw [hS]; simp
        have hp' : pre buf x = x.frames := by
          unfold pre
          rw [if_pos (List.all_eq_true.1 hS x hx)]; rfl
        exact .inr (.inr (.inr ⟨_, List.mem_map_of_mem hx, by rw [hw', hp']; exact hxw⟩))
  obtain ⟨w', h1, h2, h3⟩ := conv1d_pk c hv g (b && !(ragged c buf cs)) (preWidth c buf w cs) (cs.map fun x => x.set (b && !(ragged c buf cs)) (pre buf x))
    (by simp [hne]) (by
      intro x hx
      obtain ⟨y, hy, rfl⟩ := List.mem_map.1 hx
      exact hpl.1 y hy) hwid
  refine ⟨w', ?_, ?_, ?_⟩
  · intro x hx
    have := h1 _ (List.mem_map_of_mem (f := fun x : Chunk α => x.set (b && !(ragged c buf cs)) (pre buf x)) hx)
    rwa [full_set] at this
  · intro ht
    obtain ⟨x, hx, hxw⟩ := hpl.2 ht
    obtain ⟨y, hy, hyw⟩ := h2 ⟨_, List.mem_map_of_mem hx, hxw⟩
    obtain ⟨z, hz, rfl⟩ := List.mem_map.1 hy
    rw [full_set] at hyw
    exact ⟨z, hz, hyw⟩
  · unfold forward
    rw [preHook_pk c hv buf b w cs hne h]
    by_cases hst : (stacked c buf cs && cs.any (fun x => (buf x.id).isNone)) = true
    · rw [if_pos hst, if_pos hst, Except.bind_error']
    · rw [if_neg hst, if_neg hst, Except.bind_ok']
      simp only
      rw [h3]
      by_cases hk : w' < c.kw
      · rw [if_pos hk, if_pos hk, Except.bind_error']
      · rw [if_neg hk, if_neg hk, Except.bind_ok']
        simp only [items_set, List.map_map]
        have : ((fun x : Chunk α => x.set (b && !(ragged c buf cs)) (conv c g (full c x))) ∘ fun x : Chunk α => x.set (b && !(ragged c buf cs)) (pre buf x)) =
            fun x : Chunk α => x.set (b && !(ragged c buf cs)) (conv c g (inp c buf x)) := by
          funext x
          simp only [Function.comp_apply, full_set]
          unfold Chunk.set
          cases (b && !(ragged c buf cs)) <;> rfl
        rw [this]

/-- One successful call: outputs and new buffers, row by row. -/
theorem forward_ok (c : Cfg) (hv : c.Valid) (g : List α → β) (buf : Buf α) (b : Bool) (w : Nat) (cs : List (Chunk α)) (hne : cs ≠ [])
    (h : PreOK c buf w cs) (hwidth : WidthOK c w cs) (hnd : (cs.map (·.id)).Nodup) (o : Out α β)
    (ho : forward c g buf (pk b w cs) = .ok o) :
    ∃ b' w', o.y = pk b' w' (cs.map fun x => x.set b' (conv c g (inp c buf x))) ∧ (b' = (b && !(ragged c buf cs))) ∧
      (∀ x ∈ cs, (conv c g (inp c buf x)).length ≤ w') ∧ (Tight w cs → ∃ x ∈ cs, (conv c g (inp c buf x)).length = w') ∧
      (∀ x ∈ cs, o.buf x.id = if x.eos then none else if c.kw > 1 then some (left c (inp c buf x)) else buf x.id) ∧
      (∀ i, (∀ x ∈ cs, x.id ≠ i) → o.buf i = buf i) := by
  obtain ⟨w', h1, h2, h3⟩ := forward_pk c hv g buf b w cs hne h hwidth
  rw [h3] at ho
  split at ho
  · simp at ho
  · split at ho
    · simp at ho
    · simp only [Except.ok.injEq] at ho
      subst ho
      refine ⟨_, _, rfl, rfl, ?_, ?_, ?_⟩
      · intro x hx
        rw [conv_length c hv]
        exact nOut_mono c hv (h1 x hx)
      · intro ht
        obtain ⟨x, hx, hxw⟩ := h2 ht
        exact ⟨x, hx, by rw [conv_length c hv, hxw]⟩
      · apply postHook_pk c buf cs (inp c buf) _ _ _ hnd
        · rw [pk_ids, List.map_map]; rfl
        · rw [pk_eos, List.map_map]; rfl

end
end DS.Conv

namespace DS.Conv
open Meta
section
variable {α β : Type} [Zero α] [Zero β]

theorem unpack_pk (b : Bool) (w : Nat) (cs : List (Chunk α)) (hb : ∀ x ∈ cs, x.index.isSome = b) : unpack (pk b w cs) = cs := by
  unfold unpack
  have : (pk b w cs).md.rows = cs.map Chunk.row := ofRows_rows _ _ (by
    intro r hr
    obtain ⟨c, hc, rfl⟩ := List.mem_map.1 hr
    exact hb c hc)
  rw [this]
  simp only [pk]
  rw [zipWith_map_same]
  conv_rhs => rw [← List.map_id cs]
  apply List.map_congr_left
  intro x _
  simp [Chunk.row]

theorem unpack_packs {x : ST α} {w : Nat} {cs : List (Chunk α)} (h : Packs x w cs) : unpack x = cs := by
  have := packs_pk h
  rw [this]
  exact unpack_pk _ _ _ (packs_index h)

theorem getD_kw1 (c : Cfg) (hv : c.Valid) (h1 : c.kw = 1) (f : List α) : left c f = [] := by
  unfold left
  apply List.drop_eq_nil_of_le
  have := leftover_lt c hv f.length
  omega

theorem left_left (c : Cfg) (hv : c.Valid) (a b : List α) (h : ¬ Gap c a.length) : left c (left c a ++ b) = left c (a ++ b) := by
  have hle := (not_gap_iff c hv _).1 h
  unfold left
  rw [← List.drop_append_of_le_length hle, List.drop_drop]
  congr 1
  simp only [List.length_drop, List.length_append]
  rw [nOut_add c hv a.length b.length hle, Nat.add_mul]
  congr 3
  omega

theorem conv_left (c : Cfg) (hv : c.Valid) (g : List α → β) (a b : List α) (h : ¬ Gap c a.length) :
    conv c g (a ++ b) = conv c g a ++ conv c g (left c a ++ b) := conv_append c hv g a b ((not_gap_iff c hv _).1 h)

theorem left_gap (c : Cfg) (hv : c.Valid) (a : List α) (h : Gap c a.length) : left c a = [] := by
  unfold left
  apply List.drop_eq_nil_of_le
  by_contra hc
  exact (not_gap_iff c hv _).2 (by omega) h

/-- What the module emits for chunks `ys` when it holds `r`. -/
def outs (c : Cfg) (g : List α → β) (fin : List α) : List α → List (List α) → List β
  | _, [] => []
  | r, [y] => conv c g (r ++ y ++ fin)
  | r, y :: y' :: ys => conv c g (r ++ y) ++ outs c g fin (left c (r ++ y)) (y' :: ys)

/-- What the module holds after chunks `ys`. -/
def heldAfter (c : Cfg) : List α → List (List α) → List α
  | r, [] => r
  | r, y :: ys => heldAfter c (left c (r ++ y)) ys

theorem heldAfter_concat (c : Cfg) (y : List α) (ys : List (List α)) (r : List α) : heldAfter c r (ys ++ [y]) = left c (heldAfter c r ys ++ y) := by
  induction ys generalizing r with
  | nil => rfl
  | cons z zs ih => exact ih _

theorem outs_concat (c : Cfg) (g : List α → β) (fin y : List α) (ys : List (List α)) (r : List α) :
    outs c g fin r (ys ++ [y]) = outs c g [] r ys ++ conv c g (heldAfter c r ys ++ y ++ fin) := by
  induction ys generalizing r with
  | nil => rfl
  | cons z zs ih =>
    cases zs with
    | nil => simp [outs, heldAfter]
    | cons z' zs =>
      rw [List.cons_append, List.cons_append, outs, outs, heldAfter, List.append_assoc]
      congr 1
      exact ih _

/-- Kernel lemma: outside a gap the frames emitted already change nothing. -/
theorem outs_left (c : Cfg) (hv : c.Valid) (g : List α → β) (fin acc : List α) (ys : List (List α)) (hne : ys ≠ []) (h : ¬ Gap c acc.length) :
    conv c g acc ++ outs c g fin (left c acc) ys = outs c g fin acc ys := by
  match ys, hne with
  | [y], _ =>
    simp only [outs, List.append_assoc]
    exact (conv_left c hv g acc _ h).symm
  | y :: y' :: ys, _ =>
    simp only [outs]
    rw [left_left c hv acc y h, conv_left c hv g acc y h, List.append_assoc]

/-- The module does what starting over at the gaps gives. -/
theorem outs_eq (c : Cfg) (hv : c.Valid) (g : List α → β) (fin : List α) (ys : List (List α)) (r : List α) :
    outs c g fin r ys = restarts c g fin r ys := by
  induction ys generalizing r with
  | nil => rfl
  | cons y ys ih =>
    cases ys with
    | nil => rfl
    | cons y' ys =>
      rw [restarts, outs]
      split
      · rename_i h
        rw [left_gap c hv _ h, ih]
      · rename_i h
        rw [outs_left c hv g fin _ _ (by simp) h, ih]

/-- Without a boundary in a gap nothing starts over. -/
theorem restarts_clear (c : Cfg) (g : List α → β) (fin : List α) (ys : List (List α)) (hne : ys ≠ []) (acc : List α)
    (h : ∀ p q : List (List α), ys = p ++ q → p ≠ [] → q ≠ [] → ¬ Gap c (acc ++ p.flatten).length) :
    restarts c g fin acc ys = conv c g (acc ++ ys.flatten ++ fin) := by
  induction ys generalizing acc with
  | nil => exact absurd rfl hne
  | cons y ys ih =>
    cases ys with
    | nil => simp [restarts]
    | cons y' ys =>
      rw [restarts, if_neg (by have := h [y] (y' :: ys) rfl (by simp) (by simp); simpa using this), ih (by simp)]
      · simp
      · intro p q hpq hp hq
        have := h (y :: p) q (by rw [List.cons_append, hpq]) (by simp) hq
        simpa using this

theorem heldAfter_clear (c : Cfg) (hv : c.Valid) (ys : List (List α)) (hne : ys ≠ []) (acc : List α)
    (h : ∀ p q : List (List α), ys = p ++ q → p ≠ [] → q ≠ [] → ¬ Gap c (acc ++ p.flatten).length) :
    heldAfter c acc ys = left c (acc ++ ys.flatten) := by
  obtain ⟨zs, z, rfl⟩ := List.eq_nil_or_concat ys |>.resolve_left hne
  rw [List.concat_eq_append] at h ⊢
  clear hne
  generalize hn : zs.length = n
  induction n generalizing zs z with
  | zero => simp [List.length_eq_zero_iff.1 hn, heldAfter]
  | succ n ih =>
    obtain ⟨zs, z', rfl⟩ := List.eq_nil_or_concat zs |>.resolve_left (by rintro rfl; simp at hn)
    rw [List.concat_eq_append] at h hn ⊢
    rw [heldAfter_concat, ih zs z' ?_ (by simpa using hn)]
    · rw [left_left c hv]
      · simp
      · exact h (zs ++ [z']) [z] rfl (by simp) (by simp)
    · intro p q hpq hp hq
      exact h p (q ++ [z]) (by rw [hpq]; simp) hp (by simp)

theorem allFrames_append (a b : List (Chunk α)) : allFrames (a ++ b) = allFrames a ++ allFrames b := by simp [allFrames]
theorem allFrames_single (a : Chunk α) : allFrames [a] = a.frames := by simp [allFrames]

theorem chunksOf_append (i : String) (a b : List (List (Chunk α))) : chunksOf i (a ++ b) = chunksOf i a ++ chunksOf i b := by
  simp [chunksOf]

theorem chunksOf_single_mem (cs : List (Chunk α)) (hnd : (cs.map (·.id)).Nodup) (x : Chunk α) (hx : x ∈ cs) : chunksOf x.id [cs] = [x] := by
  unfold chunksOf
  simp only [List.flatten_cons, List.flatten_nil, List.append_nil]
  induction cs with
  | nil => simp at hx
  | cons y ys ih =>
    simp only [List.map_cons, List.nodup_cons] at hnd
    rcases List.mem_cons.1 hx with rfl | hx
    · rw [List.filter_cons]
      simp only [decide_true, if_true]
      have : ys.filter (fun c => decide (c.id = x.id)) = [] := by
        rw [List.filter_eq_nil_iff]
        intro z hz
        have : z.id ≠ x.id := by
          intro he
          apply hnd.1
          rw [← he]
          exact List.mem_map_of_mem (f := fun x : Chunk α => x.id) hz
        simp [this]
      rw [this]
    · rw [List.filter_cons]
      have : y.id ≠ x.id := by
        intro he
        apply hnd.1
        rw [he]
        exact List.mem_map_of_mem (f := fun x : Chunk α => x.id) hx
      simp only [this, decide_false, Bool.false_eq_true, if_false]
      exact ih hnd.2 hx

theorem chunksOf_single_not (cs : List (Chunk α)) (i : String) (h : ∀ x ∈ cs, x.id ≠ i) : chunksOf i [cs] = [] := by
  unfold chunksOf
  rw [List.filter_eq_nil_iff]
  intro x hx
  simp at hx
  simp [h x hx]

theorem startsOnce_concat {cs : List (Chunk α)} {x : Chunk α} (h : StartsOnce (cs ++ [x])) :
    StartsOnce cs ∧ (x.sos = true ↔ cs = []) := by
  constructor
  · intro k c hk
    apply h k c
    have hlt : k < cs.length := by
      by_contra hc
      rw [List.getElem?_eq_none (by omega)] at hk; simp at hk
    rw [List.getElem?_append_left hlt]
    exact hk
  · have := h cs.length x (by simp)
    rw [this, List.length_eq_zero_iff]

/-- What the history before the last chunk looks like. -/
theorem history_concat {cs : List (Chunk α)} {x : Chunk α} {done : List (List (Chunk α))} {cur : List (Chunk α)}
    (h : History (cs ++ [x]) done cur) :
    ∃ done' cur', History cs done' cur' ∧ (x.sos = true ↔ cur' = []) ∧
      ((x.eos = true ∧ done = done' ++ [cur' ++ [x]] ∧ cur = []) ∨ (x.eos = false ∧ done = done' ∧ cur = cur' ++ [x])) := by
  obtain ⟨h1, h2, h3⟩ := h
  rcases List.eq_nil_or_concat cur with hc | ⟨cur', y, hc⟩
  · subst hc
    rw [List.append_nil] at h1
    rcases List.eq_nil_or_concat done with hd | ⟨done', s, hd⟩
    · subst hd; simp at h1
    · rw [List.concat_eq_append] at hd
      subst hd
      obtain ⟨s1, s2, s3⟩ := h2 s (by simp)
      rcases List.eq_nil_or_concat s with hs | ⟨cur', y, hs⟩
      · exact absurd hs s1
      · rw [List.concat_eq_append] at hs
        subst hs
        simp only [List.flatten_append, List.flatten_cons, List.flatten_nil, List.append_nil] at h1
        rw [← List.append_assoc] at h1
        obtain ⟨h1', hxy⟩ := List.append_inj' h1 rfl
        simp only [List.cons.injEq, and_true] at hxy
        subst hxy
        obtain ⟨t1, t2⟩ := startsOnce_concat s2
        have hxe : x.eos = true := (s3 cur'.length x (by simp)).2 (by simp)
        refine ⟨done', cur', ⟨h1', fun s hs => h2 s (by simp [hs]), ?_⟩, t2, .inl ⟨hxe, rfl, rfl⟩⟩
        by_cases hcur : cur' = []
        · exact .inl hcur
        · refine .inr ⟨hcur, t1, ?_⟩
          intro z hz
          obtain ⟨k, hk⟩ := List.getElem?_of_mem hz
          have hlt : k < cur'.length := by
            by_contra hc
            rw [List.getElem?_eq_none (by omega)] at hk; simp at hk
          have := s3 k z (by rw [List.getElem?_append_left hlt]; exact hk)
          cases hze : z.eos with
          | false => rfl
          | true =>
            have := this.1 hze
            simp at this; omega
  · rw [List.concat_eq_append] at hc
    subst hc
    rw [← List.append_assoc] at h1
    obtain ⟨h1', hxy⟩ := List.append_inj' h1 rfl
    simp only [List.cons.injEq, and_true] at hxy
    subst hxy
    rcases h3 with h3 | ⟨-, o1, o2⟩
    · simp at h3
    · obtain ⟨t1, t2⟩ := startsOnce_concat o1
      refine ⟨done, cur', ⟨h1', h2, ?_⟩, t2, .inr ⟨o2 x (by simp), rfl, rfl⟩⟩
      by_cases hcur : cur' = []
      · exact .inl hcur
      · exact .inr ⟨hcur, t1, fun z hz => o2 z (by simp [hz])⟩

theorem history_prefix (rest : List (Chunk α)) : ∀ (cs : List (Chunk α)), (∃ done cur, History (cs ++ rest) done cur) →
    ∃ done cur, History cs done cur := by
  induction rest with
  | nil => intro cs h; simpa using h
  | cons x rest ih =>
    intro cs h
    have := ih (cs ++ [x]) (by simpa using h)
    obtain ⟨d, c, h⟩ := this
    obtain ⟨d', c', h', -⟩ := history_concat h
    exact ⟨d', c', h'⟩

theorem history_nil {done : List (List (Chunk α))} {cur : List (Chunk α)} (h : History [] done cur) : done = [] ∧ cur = [] := by
  obtain ⟨h1, h2, h3⟩ := h
  have h1 := h1.symm
  rw [List.append_eq_nil_iff] at h1
  refine ⟨?_, h1.2⟩
  cases done with
  | nil => rfl
  | cons s done =>
    have := (h2 s (by simp)).1
    simp at h1
    exact absurd h1.1.1 this

/-- `outs` are the outputs for the chunks of a stream, for any stride: the convolution starts over at gaps. -/
def Restarted (c : Cfg) (g : List α → β) (done : List (List (Chunk α))) (cur : List (Chunk α)) (outs : List (Chunk β)) : Prop :=
  ∃ doneO curO, outs = doneO.flatten ++ curO ∧
    List.Forall₂ (fun s so => allFrames so = restarts c g (zeros c.padding) (zeros c.padding) (s.map (·.frames)) ∧
      so.map Chunk.flags = s.map Chunk.flags) done doneO ∧
    allFrames curO = restarts c g [] (zeros c.padding) (cur.map (·.frames)) ∧ curO.map Chunk.flags = cur.map Chunk.flags

/-- Invariant after any history `hist` of batches with outputs `outs`. -/
structure InvG (c : Cfg) (g : List α → β) (hist : List (List (Chunk α))) (outs : List (List (Chunk β))) (buf : Buf α) : Prop where
  kw1 : c.kw = 1 → ∀ i, buf i = none
  emitted : ∀ i done cur, History (chunksOf i hist) done cur →
    Restarted c g done cur (chunksOf i outs)
  closed : ∀ i done cur, History (chunksOf i hist) done cur → cur = [] → buf i = none
  opened : ∀ i done cur, History (chunksOf i hist) done cur → cur ≠ [] →
    (buf i).getD [] = heldAfter c (zeros c.padding) (cur.map (·.frames)) ∧ (c.kw > 1 → (buf i).isSome = true)

/-- The invariant for strides up to the kernel width. -/
structure Inv (c : Cfg) (g : List α → β) (hist : List (List (Chunk α))) (outs : List (List (Chunk β))) (buf : Buf α) : Prop where
  general : InvG c g hist outs buf
  emitted : ∀ i done cur, History (chunksOf i hist) done cur →
    Streamed c g done cur (chunksOf i outs)
  opened : ∀ i done cur, History (chunksOf i hist) done cur → cur ≠ [] →
    (buf i).getD [] = left c (zeros c.padding ++ allFrames cur) ∧ (c.kw > 1 → (buf i).isSome = true)

theorem Inv.kw1 {c : Cfg} {g : List α → β} {hist : List (List (Chunk α))} {outs : List (List (Chunk β))} {buf : Buf α}
    (h : Inv c g hist outs buf) : c.kw = 1 → ∀ i, buf i = none := h.general.kw1
theorem Inv.closed {c : Cfg} {g : List α → β} {hist : List (List (Chunk α))} {outs : List (List (Chunk β))} {buf : Buf α}
    (h : Inv c g hist outs buf) : ∀ i done cur, History (chunksOf i hist) done cur → cur = [] → buf i = none := h.general.closed

theorem flatten_frames (cs : List (Chunk α)) : (cs.map (·.frames)).flatten = allFrames cs := rfl

theorem clear_frames {c : Cfg} {cs : List (Chunk α)} (h : Clear c cs) (p q : List (List α)) (hpq : cs.map (·.frames) = p ++ q)
    (hp : p ≠ []) (hq : q ≠ []) : ¬ Gap c (zeros c.padding ++ p.flatten : List α).length := by
  obtain ⟨a, b, rfl, rfl, rfl⟩ := List.map_eq_append_iff.1 hpq
  have := h a b rfl (by simpa using hp) (by simpa using hq)
  rw [List.length_append, zeros_length]
  exact this

theorem clear_of_le (c : Cfg) (hv : c.Valid) (hs : c.stride ≤ c.kw) (cs : List (Chunk α)) : Clear c cs :=
  fun _ _ _ _ _ => no_gap c hv hs _

theorem restarts_due {c : Cfg} {cs : List (Chunk α)} (h : Clear c cs) (g : List α → β) : restarts c g [] (zeros c.padding) (cs.map (·.frames)) = due c g cs := by
  unfold due
  split
  · rename_i hc
    subst hc; rfl
  · rename_i hc
    rw [restarts_clear c g _ _ (by simpa using hc) _ (clear_frames h), List.append_nil]
    rfl

theorem restarts_offline {c : Cfg} {cs : List (Chunk α)} (h : Clear c cs) (hne : cs ≠ []) (g : List α → β) :
    restarts c g (zeros c.padding) (zeros c.padding) (cs.map (·.frames)) = offline c g (allFrames cs) := by
  rw [restarts_clear c g _ _ (by simpa using hne) _ (clear_frames h)]
  rfl

theorem forall2_imp_mem {γ δ : Type} {R S : γ → δ → Prop} {as : List γ} {bs : List δ} (h : List.Forall₂ R as bs)
    (hi : ∀ a ∈ as, ∀ b, R a b → S a b) : List.Forall₂ S as bs := by
  induction h with
  | nil => exact .nil
  | cons h1 _ ih => exact .cons (hi _ (by simp) _ h1) (ih fun a ha => hi a (by simp [ha]))

/-- Where no chunk ends inside a gap the outputs are the offline ones. -/
theorem streamed_of_clear {c : Cfg} {g : List α → β} {cs : List (Chunk α)} {done : List (List (Chunk α))} {cur : List (Chunk α)} {outs : List (Chunk β)}
    (h : Restarted c g done cur outs) (hh : History cs done cur) (h1 : ∀ s ∈ done, Clear c s) (h2 : Clear c cur) : Streamed c g done cur outs := by
  obtain ⟨doneO, curO, a1, a2, a3, a4⟩ := h
  refine ⟨doneO, curO, a1, forall2_imp_mem a2 ?_, by rw [a3, restarts_due h2], a4⟩
  rintro s hs so ⟨b1, b2⟩
  exact ⟨by rw [b1, restarts_offline (h1 s hs) (hh.2.1 s hs).1], b2⟩

theorem InvG.small {c : Cfg} (hv : c.Valid) (hs : c.stride ≤ c.kw) {g : List α → β} {hist : List (List (Chunk α))} {outs : List (List (Chunk β))} {buf : Buf α}
    (h : InvG c g hist outs buf) : Inv c g hist outs buf := by
  refine ⟨h, fun i done cur hh => streamed_of_clear (h.emitted i done cur hh) hh (fun s _ => clear_of_le c hv hs s) (clear_of_le c hv hs cur), fun i done cur hh hc => ?_⟩
  obtain ⟨h1, h2⟩ := h.opened i done cur hh hc
  refine ⟨?_, h2⟩
  rw [h1, heldAfter_clear c hv _ (by simpa using hc) _ (clear_frames (clear_of_le c hv hs cur))]
  rfl

theorem inv_init (c : Cfg) (g : List α → β) : InvG c g [] [] (fun _ => none) := by
  refine ⟨fun _ _ => rfl, ?_, fun _ _ _ _ _ => rfl, ?_⟩
  · intro i done cur h
    obtain ⟨rfl, rfl⟩ := history_nil h
    exact ⟨[], [], by simp [chunksOf], .nil, rfl, rfl⟩
  · intro i done cur h hc
    obtain ⟨-, rfl⟩ := history_nil h
    exact absurd rfl hc

theorem forall2_concat {γ δ : Type} {R : γ → δ → Prop} {as : List γ} {bs : List δ} (h : List.Forall₂ R as bs) {a : γ} {b : δ} (hab : R a b) :
    List.Forall₂ R (as ++ [a]) (bs ++ [b]) := by
  induction h with
  | nil => exact .cons hab .nil
  | cons h1 _ ih => exact .cons h1 ih

theorem sameLengths_single (b : Option (List α)) : sameLengths [b] = true := by simp [sameLengths]

theorem inv_preOK {c : Cfg} {g : List α → β} {hist : List (List (Chunk α))} {outs : List (List (Chunk β))} {buf : Buf α}
    (hinv : InvG c g hist outs buf) {cs : List (Chunk α)} {w : Nat} (hb : BatchOK cs) (hw : ∀ x ∈ cs, x.frames.length ≤ w)
    (hproto : ∀ i, ∃ done cur, History (chunksOf i (hist ++ [cs])) done cur) : PreOK c buf w cs := by
  refine ⟨hw, ?_, ?_, ?_⟩
  · intro x hx hs
    obtain ⟨d, cur, h⟩ := hproto x.id
    rw [chunksOf_append, chunksOf_single_mem cs hb.2.1 x hx] at h
    obtain ⟨d', cur', h', hsos, -⟩ := history_concat h
    rw [hinv.closed x.id d' cur' h' (hsos.1 hs)]
    rfl
  · intro h1 x _
    rw [hinv.kw1 h1]
    rfl
  · intro hr
    rcases hb.2.2 with h1 | h1
    · exfalso
      match cs, h1 with
      | [x], _ =>
        unfold ragged at hr
        rw [List.map_cons, List.map_nil, sameLengths_single] at hr
        simp at hr
    · exact h1

/-- One successful call preserves the invariant. -/
theorem inv_step {c : Cfg} (hv : c.Valid) {g : List α → β} {hist : List (List (Chunk α))} {outs : List (List (Chunk β))}
    {buf : Buf α} (hinv : InvG c g hist outs buf) {x : ST α} {w : Nat} {cs : List (Chunk α)} (hp : Packs x w cs) (hb : BatchOK cs)
    (hwidth : WidthOK c w cs) (hproto : ∀ i, ∃ done cur, History (chunksOf i (hist ++ [cs])) done cur)
    {o : Out α β} (ho : forward c g buf x = .ok o) :
    ∃ w' outc, Packs o.y w' outc ∧ (Tight w cs → Tight w' outc) ∧ outc.map Chunk.flags = cs.map Chunk.flags ∧
      InvG c g (hist ++ [cs]) (outs ++ [outc]) o.buf := by
  have hpre := inv_preOK hinv hb hp.2.2.2.1 hproto
  rw [packs_pk hp] at ho
  obtain ⟨b', w', h1, hb', h2, h2', h3, h4⟩ := forward_ok c hv g buf _ w cs hb.1 hpre hwidth hb.2.1 o ho
  have hidx : ∀ z ∈ cs.map (fun z : Chunk α => z.set b' (conv c g (inp c buf z))), z.index.isSome = b' := by
    intro z hz
    obtain ⟨y, hy, rfl⟩ := List.mem_map.1 hz
    have hiy := packs_index hp y hy
    simp only [Chunk.set]
    cases hbb : b' with
    | false => simp
    | true =>
      rw [hbb] at hb'
      have := (Bool.and_eq_true _ _ ▸ hb'.symm : _ ∧ _).1
      simp [hiy, this]
  have hpacks : Packs o.y w' (cs.map fun z => z.set b' (conv c g (inp c buf z))) := by
    rw [h1]
    apply pk_packs hidx
    intro z hz
    obtain ⟨y, hy, rfl⟩ := List.mem_map.1 hz
    exact h2 y hy
  refine ⟨w', _, hpacks, ?_, by simp [Chunk.set, Chunk.flags, Function.comp_def], ?_⟩
  · intro ht
    obtain ⟨y, hy, hyw⟩ := h2' ht
    exact ⟨_, List.mem_map_of_mem hy, hyw⟩
  -- history before the batch, seen from stream `i`
  have hout : ∀ y ∈ cs, chunksOf y.id [cs.map fun z => z.set b' (conv c g (inp c buf z))] = [y.set b' (conv c g (inp c buf y))] := by
    intro y hy
    have := chunksOf_single_mem (cs.map fun z => z.set b' (conv c g (inp c buf z))) (by
      rw [List.map_map]
      exact hb.2.1) (y.set b' (conv c g (inp c buf y))) (List.mem_map_of_mem (f := fun z : Chunk α => z.set b' (conv c g (inp c buf z))) hy)
    exact this
  have hnot : ∀ i, (∀ y ∈ cs, y.id ≠ i) → chunksOf i [cs] = [] ∧ chunksOf i [cs.map fun z => z.set b' (conv c g (inp c buf z))] = [] := by
    intro i hi
    refine ⟨chunksOf_single_not _ _ hi, chunksOf_single_not _ _ ?_⟩
    intro z hz
    obtain ⟨y, hy, rfl⟩ := List.mem_map.1 hz
    exact hi y hy
  -- frames seen by the kernel, in terms of the history
  have hinp : ∀ y ∈ cs, ∀ done' cur', History (chunksOf y.id hist) done' cur' → (y.sos = true ↔ cur' = []) →
      inp c buf y = heldAfter c (zeros c.padding) (cur'.map (·.frames)) ++ y.frames ++ (if y.eos then zeros c.padding else []) := by
    intro y hy done' cur' hh hsos
    unfold inp
    congr 2
    by_cases hcur : cur' = []
    · subst hcur
      rw [hsos.2 rfl, if_pos rfl]
      rfl
    · have hys : y.sos = false := by
        cases hy' : y.sos with
        | false => rfl
        | true => exact absurd (hsos.1 hy') hcur
      rw [hys, (hinv.opened y.id done' cur' hh hcur).1]
      rfl
  refine ⟨?_, ?_, ?_, ?_⟩
  · intro h1 i
    by_cases hi : ∃ y ∈ cs, y.id = i
    · obtain ⟨y, hy, rfl⟩ := hi
      rw [h3 y hy, hinv.kw1 h1]
      cases y.eos <;> simp [h1]
    · rw [h4 i (fun y hy he => hi ⟨y, hy, he⟩)]
      exact hinv.kw1 h1 i
  · intro i done cur hh
    by_cases hi : ∃ y ∈ cs, y.id = i
    · obtain ⟨y, hy, rfl⟩ := hi
      rw [chunksOf_append, chunksOf_single_mem cs hb.2.1 y hy] at hh
      obtain ⟨done', cur', hh', hsos, hcase⟩ := history_concat hh
      have hc1 := hinp y hy done' cur' hh' hsos
      obtain ⟨doneO, curO, hp1, hp2, hp3, hp4⟩ := hinv.emitted y.id done' cur' hh'
      have hfr : allFrames (curO ++ [y.set b' (conv c g (inp c buf y))]) =
          restarts c g (if y.eos then zeros c.padding else []) (zeros c.padding) ((cur' ++ [y]).map (·.frames)) := by
        rw [allFrames_append, allFrames_single, hp3, List.map_append, List.map_cons, List.map_nil, ← outs_eq c hv, ← outs_eq c hv,
          outs_concat, ← hc1]
        rfl
      have hfl : (curO ++ [y.set b' (conv c g (inp c buf y))]).map Chunk.flags = (cur' ++ [y]).map Chunk.flags := by
        simp [hp4, Chunk.flags, Chunk.set]
      rw [chunksOf_append, hout y hy, hp1]
      rcases hcase with ⟨he, hd, hcu⟩ | ⟨he, hd, hcu⟩
      · subst hd hcu
        rw [he, if_pos rfl] at hfr
        refine ⟨doneO ++ [curO ++ [y.set b' (conv c g (inp c buf y))]], [], by simp, ?_, rfl, rfl⟩
        exact forall2_concat hp2 ⟨hfr, hfl⟩
      · subst hd hcu
        rw [he] at hfr
        refine ⟨doneO, curO ++ [y.set b' (conv c g (inp c buf y))], by simp, hp2, ?_, hfl⟩
        rw [hfr]
        rfl
    · have hi' : ∀ y ∈ cs, y.id ≠ i := fun y hy he => hi ⟨y, hy, he⟩
      rw [chunksOf_append, (hnot i hi').1, List.append_nil] at hh
      rw [chunksOf_append, (hnot i hi').2, List.append_nil]
      exact hinv.emitted i done cur hh
  · intro i done cur hh hcur
    by_cases hi : ∃ y ∈ cs, y.id = i
    · obtain ⟨y, hy, rfl⟩ := hi
      rw [chunksOf_append, chunksOf_single_mem cs hb.2.1 y hy] at hh
      obtain ⟨done', cur', hh', hsos, hcase⟩ := history_concat hh
      rcases hcase with ⟨he, hd, hcu⟩ | ⟨he, hd, hcu⟩
      · rw [h3 y hy, he]; rfl
      · rw [hcur] at hcu; simp at hcu
    · have hi' : ∀ y ∈ cs, y.id ≠ i := fun y hy he => hi ⟨y, hy, he⟩
      rw [chunksOf_append, (hnot i hi').1, List.append_nil] at hh
      rw [h4 i hi']
      exact hinv.closed i done cur hh hcur
  · intro i done cur hh hcur
    by_cases hi : ∃ y ∈ cs, y.id = i
    · obtain ⟨y, hy, rfl⟩ := hi
      rw [chunksOf_append, chunksOf_single_mem cs hb.2.1 y hy] at hh
      obtain ⟨done', cur', hh', hsos, hcase⟩ := history_concat hh
      rcases hcase with ⟨he, hd, hcu⟩ | ⟨he, hd, hcu⟩
      · exact absurd hcu hcur
      · have hc2 := hinp y hy done' cur' hh' hsos
        rw [he] at hc2
        simp only [Bool.false_eq_true, if_false, List.append_nil] at hc2
        rw [hcu, List.map_append, List.map_cons, List.map_nil, heldAfter_concat, ← hc2]
        rw [h3 y hy, he]
        subst hcu
        simp only [Bool.false_eq_true, if_false]
        by_cases hk : c.kw > 1
        · rw [if_pos hk]
          exact ⟨rfl, fun _ => rfl⟩
        · rw [if_neg hk]
          have h1 : c.kw = 1 := by have := kw_pos c hv; omega
          refine ⟨?_, fun h => absurd h hk⟩
          rw [hinv.kw1 h1, getD_kw1 c hv h1]
          rfl
    · have hi' : ∀ y ∈ cs, y.id ≠ i := fun y hy he => hi ⟨y, hy, he⟩
      rw [chunksOf_append, (hnot i hi').1, List.append_nil] at hh
      rw [h4 i hi']
      exact hinv.opened i done cur hh hcur

theorem inv_run {c : Cfg} (hv : c.Valid) {g : List α → β} (xs : List (ST α)) :
    ∀ {hist : List (List (Chunk α))} {outs : List (List (Chunk β))} {buf : Buf α} (_ : InvG c g hist outs buf)
    (_ : ∀ x ∈ xs, WellPacked x ∧ BatchOK (unpack x) ∧ WidthOK c x.width (unpack x))
    (_ : ∀ i, ∃ done cur, History (chunksOf i (hist ++ xs.map unpack)) done cur)
    {ys : List (ST β)} {buf' : Buf α} (_ : run c g buf xs = .ok (ys, buf')),
    InvG c g (hist ++ xs.map unpack) (outs ++ ys.map unpack) buf' ∧ (∀ y ∈ ys, WellPacked y) ∧
      (ys.map fun y => (unpack y).map Chunk.flags) = (xs.map fun x => (unpack x).map Chunk.flags) ∧
      ((∀ x ∈ xs, Tight x.width (unpack x)) → ∀ y ∈ ys, Tight y.width (unpack y)) := by
  induction xs with
  | nil =>
    intro hist outs buf hinv _ _ ys buf' hrun
    simp only [run, Except.ok.injEq, Prod.mk.injEq] at hrun
    obtain ⟨rfl, rfl⟩ := hrun
    refine ⟨by simpa using hinv, by simp, rfl, by simp⟩
  | cons x xs ih =>
    intro hist outs buf hinv hx hproto ys buf' hrun
    simp only [run] at hrun
    obtain ⟨o, ho, hrun⟩ := bind_ok_iff hrun
    obtain ⟨⟨ys', b'⟩, hr, hrun⟩ := bind_ok_iff hrun
    simp only [Except.ok.injEq, Prod.mk.injEq] at hrun
    obtain ⟨rfl, rfl⟩ := hrun
    obtain ⟨hx1, hx2, hx3⟩ := hx x (by simp)
    have hp1 : ∀ i, ∃ done cur, History (chunksOf i (hist ++ [unpack x])) done cur := by
      intro i
      have := hproto i
      rw [List.map_cons, ← List.singleton_append, ← List.append_assoc, chunksOf_append] at this
      exact history_prefix _ _ this
    obtain ⟨w', outc, hpk, htight, hflags, hinv'⟩ := inv_step hv hinv hx1 hx2 hx3 hp1 ho
    have houtc := unpack_packs hpk
    have hproto' : ∀ i, ∃ done cur, History (chunksOf i ((hist ++ [unpack x]) ++ xs.map unpack)) done cur := by
      intro i
      have := hproto i
      simpa using this
    obtain ⟨r1, r2, r3, r4⟩ := ih hinv' (fun z hz => hx z (by simp [hz])) hproto' hr
    refine ⟨?_, ?_, ?_, ?_⟩
    · have e : outs ++ List.map unpack (o.y :: ys') = outs ++ [outc] ++ ys'.map unpack := by
        simp [houtc]
      rw [e]
      simpa using r1
    · intro y hy
      rcases List.mem_cons.1 hy with rfl | hy
      · unfold WellPacked
        rw [houtc, hpk.2.2.1]
        exact hpk
      · exact r2 y hy
    · simp only [List.map_cons, r3, houtc, hflags]
    · intro ht y hy
      rcases List.mem_cons.1 hy with rfl | hy
      · rw [houtc, hpk.2.2.1]
        exact htight (ht x (by simp))
      · exact r4 (fun z hz => ht z (by simp [hz])) y hy

end
end DS.Conv
