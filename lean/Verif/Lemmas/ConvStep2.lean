import Verif.Lemmas.ConvStep
/-! One call of an online convolution on a packed batch: padding, convolution and post-hook. -/

namespace DS.Conv
open Meta

section
variable {α β : Type} [Zero α] [Zero β]

/-- The frames of a chunk with the padding of the sequence's start and end. -/
def full (c : Cfg) (x : Chunk α) : List α :=
  (if x.sos then zeros c.padding else []) ++ x.frames ++ (if x.eos then zeros c.padding else [])

theorem full_length (c : Cfg) (x : Chunk α) :
    (full c x).length = (if x.sos then c.padding else 0) + x.frames.length + (if x.eos then c.padding else 0) := by
  unfold full
  cases x.sos <;> cases x.eos <;> simp [zeros_length]
  omega

theorem zeros_take (m n : Nat) : (zeros n : List α).take m = zeros (min m n) := by simp [zeros, List.take_replicate]
theorem zeros_drop (m n : Nat) : (zeros n : List α).drop m = zeros (n - m) := by simp [zeros, List.drop_replicate]

theorem roll_zeros (p n : Nat) (f : List α) (h : p ≤ n) : roll p (f ++ zeros n) = zeros p ++ f ++ zeros (n - p) := by
  unfold roll
  have hlen : (f ++ zeros n : List α).length = f.length + n := by simp [zeros_length]
  rw [hlen]
  by_cases hp : p < f.length + n
  · rw [Nat.mod_eq_of_lt hp]
    have h1 : (f ++ zeros n : List α).drop (f.length + n - p) = zeros p := by
      rw [List.drop_append, List.drop_eq_nil_of_le (by omega), zeros_drop, List.nil_append]
      congr 1; omega
    have h2 : (f ++ zeros n : List α).take (f.length + n - p) = f ++ zeros (n - p) := by
      rw [List.take_append, List.take_of_length_le (by omega), zeros_take]
      congr 2; omega
    rw [h1, h2, List.append_assoc]
  · have hf : f = [] := List.length_eq_zero_iff.1 (by omega)
    have hn : n = p := by omega
    subst hf hn
    simp [zeros_drop, zeros_take]
    simp [zeros]

theorem padLengths_pk (c : Cfg) (b : Bool) (w : Nat) (cs : List (Chunk α)) :
    padLengths c.padding (pk b w cs).md = cs.map fun x => ((full c x).length : Int) := by
  unfold padLengths
  rw [pk_allStarting, pk_allEnding, pk_anyStarting, pk_anyEnding, pk_lengths, pk_sos, pk_eos]
  split
  · rename_i h
    rw [Bool.and_eq_true] at h
    rw [List.map_map]
    apply List.map_congr_left
    intro x hx
    have h1 : x.sos = true := List.all_eq_true.1 h.1 x hx
    have h2 : x.eos = true := List.all_eq_true.1 h.2 x hx
    simp only [Function.comp_apply, full_length, h1, h2, if_true]
    omega
  · split
    · unfold addWhere
      rw [zipWith_map_same, zipWith_map_same]
      apply List.map_congr_left
      intro x hx
      rw [full_length]
      cases x.sos <;> cases x.eos <;> simp <;> omega
    · rename_i h1 h
      apply List.map_congr_left
      intro x hx
      simp only [Bool.or_eq_true, List.any_eq_true, not_or, not_exists, not_and] at h
      have h1 := h.1 x hx
      have h2 := h.2 x hx
      simp [full_length, h1, h2]

/-- Some row is as long as the batch is wide, counting the padding at its end if it ends. -/
def Reaches (c : Cfg) (w : Nat) (cs : List (Chunk α)) : Prop := ∃ x ∈ cs, w ≤ x.frames.length + (if x.eos then c.padding else 0)

/-- The hypothesis on trailing padding: harmless unless all rows start, not all end, and the layer pads. -/
def WidthOK (c : Cfg) (w : Nat) (cs : List (Chunk α)) : Prop :=
  c.padding = 0 ∨ allSos cs = false ∨ allEos cs = true ∨ Reaches c w cs

theorem Tight.reaches {c : Cfg} {w : Nat} {cs : List (Chunk α)} (h : Tight w cs) : Reaches c w cs := by
  obtain ⟨x, hx, hxw⟩ := h
  exact ⟨x, hx, by omega⟩

theorem maxLength_map {cs : List (Chunk α)} (hne : cs ≠ []) (f : Chunk α → Nat) :
    ∃ n : Nat, torchMax (cs.map fun x => ((f x : Nat) : Int)) = .ok (n : Int) ∧ (∀ x ∈ cs, f x ≤ n) ∧ ∃ x ∈ cs, f x = n := by
  cases h : torchMax (cs.map fun x => ((f x : Nat) : Int)) with
  | error e =>
    cases cs with
    | nil => exact absurd rfl hne
    | cons x xs => simp [torchMax] at h
  | ok v =>
    obtain ⟨h1, h2⟩ := (torchMax_iff _ _).1 h
    obtain ⟨x, hx, rfl⟩ := List.mem_map.1 h1
    refine ⟨f x, rfl, ?_, x, hx, rfl⟩
    intro y hy
    have := h2 _ (List.mem_map_of_mem (f := fun x => ((f x : Nat) : Int)) hy)
    omega

theorem fpad_zero (r : List α) : fpad 0 0 r = r := by simp [fpad]

theorem applyPadding_pk (c : Cfg) (b : Bool) (w : Nat) (cs : List (Chunk α)) (hne : cs ≠ [])
    (hw : ∀ x ∈ cs, x.frames.length ≤ w) (hwidth : WidthOK c w cs) :
    ∃ p' w' rows, applyPadding c (pk b w cs) =
        .ok ({ (pk b w cs).md with lengths := cs.map fun x => ((full c x).length : Int) }, p', w', rows) ∧
      rows.map (fpad p' p') = cs.map (fun x => full c x ++ zeros (w' + 2 * p' - (full c x).length)) ∧
      (∀ x ∈ cs, (full c x).length ≤ w' + 2 * p') ∧ (p' = 0 ∨ allEos cs = true) ∧
      (Tight w cs → ∃ x ∈ cs, (full c x).length = w' + 2 * p') := by
  unfold applyPadding
  by_cases hp : c.padding > 0
  · rw [if_pos hp]
    simp only
    rw [padLengths_pk]
    have ha : ({ (pk b w cs).md with lengths := cs.map fun x => ((full c x).length : Int) } : Meta).allStarting = allSos cs := pk_allStarting b w cs
    have he : ({ (pk b w cs).md with lengths := cs.map fun x => ((full c x).length : Int) } : Meta).allEnding = allEos cs := pk_allEnding b w cs
    have hsom : ({ (pk b w cs).md with lengths := cs.map fun x => ((full c x).length : Int) } : Meta).anyStarting = cs.any (·.sos) := pk_anyStarting b w cs
    have hsos : ({ (pk b w cs).md with lengths := cs.map fun x => ((full c x).length : Int) } : Meta).sos = cs.map (·.sos) := pk_sos b w cs
    have hmax : ({ (pk b w cs).md with lengths := cs.map fun x => ((full c x).length : Int) } : Meta).maxLength = torchMax (cs.map fun x => ((full c x).length : Int)) := rfl
    generalize ({ (pk b w cs).md with lengths := cs.map fun x => ((full c x).length : Int) } : Meta) = m at ha he hsom hsos hmax ⊢
    rw [ha, he]
    by_cases hall : (allSos cs && allEos cs) = true
    · rw [if_pos hall]
      rw [Bool.and_eq_true] at hall
      have hs : ∀ x ∈ cs, x.sos = true := fun x hx => List.all_eq_true.1 hall.1 x hx
      have hes : ∀ x ∈ cs, x.eos = true := fun x hx => List.all_eq_true.1 hall.2 x hx
      refine ⟨c.padding, w, (pk b w cs).rows, rfl, ?_, ?_, .inr hall.2, ?_⟩
      · simp only [pk, List.map_map]
        apply List.map_congr_left
        intro x hx
        have := hw x hx
        simp only [Function.comp_apply, fpad, full_length, hs x hx, hes x hx, if_true]
        unfold full
        simp only [hs x hx, hes x hx, if_true]
        rw [show List.replicate c.padding (0 : α) = zeros c.padding from rfl]
        simp only [List.append_assoc]
        congr 2
        rw [← zeros_add, ← zeros_add]
        congr 1
        omega
      · intro x hx
        have := hw x hx
        simp only [full_length, hs x hx, hes x hx, if_true]
        omega
      · rintro ⟨x, hx, hxw⟩
        refine ⟨x, hx, ?_⟩
        simp only [full_length, hs x hx, hes x hx, if_true]
        omega
    · rw [if_neg hall]
      obtain ⟨n, hn, hn1, x0, hx0, hx0n⟩ := maxLength_map hne (fun x => (full c x).length)
      rw [hmax, hn, Except.bind_ok']
      unfold widen
      simp only
      rw [ha]
      by_cases hS : allSos cs = true
      · have hs : ∀ x ∈ cs, x.sos = true := fun x hx => List.all_eq_true.1 hS x hx
        have hE : allEos cs = false := by
          cases hE : allEos cs with
          | false => rfl
          | true => exact absurd (by rw [hS, hE]; rfl) hall
        have ht : Reaches c w cs := by
          rcases hwidth with h | h | h | h
          · omega
          · rw [hS] at h; simp at h
          · rw [hE] at h; simp at h
          · exact h
        obtain ⟨t, htm, htw⟩ := ht
        have hnw : w + c.padding ≤ n := by
          have := hn1 t htm
          simp only [full_length, hs t htm, if_true] at this
          cases hte : t.eos <;> simp only [hte, Bool.false_eq_true, if_false, if_true] at htw this <;> omega
        have hwidth' : (pk b w cs).width = w := rfl
        simp only [hwidth']
        rw [if_pos (by omega), hS]
        simp only [if_true]
        rw [if_pos (by omega), Except.bind_ok']
        have hsh : shiftStarting c.padding m ((pk b w cs).rows.map (fpad c.padding ((n : Int) - w - c.padding).toNat)) =
            (pk b w cs).rows.map (fpad c.padding ((n : Int) - w - c.padding).toNat) := by
          unfold shiftStarting
          rw [ha, hS]; simp
        have hwn : w + ((n : Int) - w).toNat = n := by omega
        simp only [hsh, hwn]
        refine ⟨0, n, _, rfl, ?_, ?_, .inl rfl, ?_⟩
        · rw [show (fpad 0 0 : List α → List α) = id by funext r; exact fpad_zero r, List.map_id]
          simp only [pk, List.map_map]
          apply List.map_congr_left
          intro x hx
          have hx1 := hw x hx
          have hx2 := hn1 x hx
          simp only [Function.comp_apply, fpad]
          simp only [full_length] at hx2 ⊢
          unfold full
          simp only [hs x hx, if_true] at hx2 ⊢
          rw [show List.replicate c.padding (0 : α) = zeros c.padding from rfl,
            show List.replicate ((n : Int) - w - c.padding).toNat (0 : α) = zeros ((n : Int) - w - c.padding).toNat from rfl]
          simp only [List.append_assoc]
          congr 2
          cases hex : x.eos with
          | true =>
            simp only [hex, if_true] at hx2 ⊢
            rw [← zeros_add, ← zeros_add]
            congr 1
            omega
          | false =>
            simp only [hex, Bool.false_eq_true, if_false, List.nil_append] at hx2 ⊢
            rw [← zeros_add]
            congr 1
            omega
        · intro x hx
          have := hn1 x hx
          omega
        · intro _
          exact ⟨x0, hx0, by omega⟩
      · have hS' : allSos cs = false := by simpa using hS
        -- both branches of the widening
        have hwiden : ∃ w', w' = max w n ∧ (if (n : Int) - (pk b w cs).width > 0 then
            if allSos cs = true then
              if (n : Int) - (pk b w cs).width ≥ c.padding then
                Except.ok ((pk b w cs).width + ((n : Int) - (pk b w cs).width).toNat, (pk b w cs).rows.map (fpad c.padding ((n : Int) - (pk b w cs).width - c.padding).toNat))
              else Except.error PyErr.assertionError
            else Except.ok ((pk b w cs).width + ((n : Int) - (pk b w cs).width).toNat, (pk b w cs).rows.map (fpad 0 ((n : Int) - (pk b w cs).width).toNat))
          else Except.ok ((pk b w cs).width, (pk b w cs).rows) : Py (Nat × List (List α))) =
            .ok (w', cs.map fun x => x.frames ++ zeros (w' - x.frames.length)) := by
          refine ⟨_, rfl, ?_⟩
          have hwidth' : (pk b w cs).width = w := rfl
          rw [hwidth', hS']
          by_cases hap : (n : Int) - w > 0
          · rw [if_pos hap]
            simp only [Bool.false_eq_true, if_false, Except.ok.injEq, Prod.mk.injEq]
            refine ⟨by omega, ?_⟩
            simp only [pk, List.map_map]
            apply List.map_congr_left
            intro x hx
            have := hw x hx
            simp only [Function.comp_apply, fpad]
            rw [show List.replicate ((n : Int) - w).toNat (0 : α) = zeros ((n : Int) - w).toNat from rfl]
            simp only [List.replicate_zero, List.nil_append, List.append_assoc]
            rw [← zeros_add]
            congr 2
            omega
          · rw [if_neg hap]
            simp only [Except.ok.injEq, Prod.mk.injEq]
            refine ⟨by omega, ?_⟩
            simp only [pk]
            apply List.map_congr_left
            intro x hx
            congr 2
            omega
        obtain ⟨w', hw', hwid⟩ := hwiden
        rw [hwid, Except.bind_ok']
        have hsh : shiftStarting c.padding m (cs.map fun x => x.frames ++ zeros (w' - x.frames.length)) =
            cs.map fun x => full c x ++ zeros (w' - (full c x).length) := by
          unfold shiftStarting
          rw [ha, hS', hsom, hsos]
          have hrow : ∀ x ∈ cs, (x.sos = true → full c x ++ zeros (w' - (full c x).length) = roll c.padding (x.frames ++ zeros (w' - x.frames.length))) ∧
              (x.sos = false → full c x ++ zeros (w' - (full c x).length) = x.frames ++ zeros (w' - x.frames.length)) := by
            intro x hx
            have h1 := hw x hx
            have h2 := hn1 x hx
            constructor
            · intro hxs
              simp only [full_length, hxs, if_true] at h2 ⊢
              rw [roll_zeros _ _ _ (by omega)]
              unfold full
              simp only [hxs, if_true, List.append_assoc]
              congr 2
              cases hex : x.eos with
              | true =>
                simp only [hex, if_true] at h2 ⊢
                rw [← zeros_add]; congr 1; omega
              | false =>
                simp only [hex, Bool.false_eq_true, if_false, List.nil_append] at h2 ⊢
                congr 1; omega
            · intro hxs
              simp only [full_length, hxs, Bool.false_eq_true, if_false] at h2 ⊢
              unfold full
              simp only [hxs, Bool.false_eq_true, if_false, List.nil_append, List.append_assoc]
              congr 1
              cases hex : x.eos with
              | true =>
                simp only [hex, if_true] at h2 ⊢
                rw [← zeros_add]; congr 1; omega
              | false =>
                simp only [hex, Bool.false_eq_true, if_false, List.nil_append] at h2 ⊢
                congr 1; omega
          by_cases hany : cs.any (·.sos) = true
          · rw [hany]
            simp only [Bool.not_false, Bool.and_true, if_true]
            rw [zipWith_map_same]
            apply List.map_congr_left
            intro x hx
            cases hxs : x.sos with
            | true => simp only [if_true]; exact ((hrow x hx).1 hxs).symm
            | false => simp only [Bool.false_eq_true, if_false]; exact ((hrow x hx).2 hxs).symm
          · have hany' : cs.any (·.sos) = false := by simpa using hany
            rw [hany']
            simp only [Bool.false_and, Bool.false_eq_true, if_false]
            apply List.map_congr_left
            intro x hx
            have : x.sos = false := by
              have := List.any_eq_false.1 hany' x hx
              simpa using this
            exact ((hrow x hx).2 this).symm
        simp only
        rw [hsh]
        refine ⟨0, w', _, rfl, ?_, ?_, .inl rfl, ?_⟩
        · rw [show (fpad 0 0 : List α → List α) = id by funext r; exact fpad_zero r, List.map_id]
          rfl
        · intro x hx
          have := hn1 x hx
          omega
        · rintro ⟨t, htm, htw⟩
          refine ⟨x0, hx0, ?_⟩
          have h1 := hn1 t htm
          rw [full_length] at h1
          omega
  · rw [if_neg hp]
    have hp0 : c.padding = 0 := by omega
    have hfull : ∀ x : Chunk α, full c x = x.frames := by
      intro x; unfold full; rw [hp0]; cases x.sos <;> cases x.eos <;> simp [zeros]
    refine ⟨0, w, (pk b w cs).rows, ?_, ?_, ?_, .inl rfl, ?_⟩
    · simp only [hfull]
      rw [← pk_lengths b w]
      rfl
    · rw [show (fpad 0 0 : List α → List α) = id by funext r; exact fpad_zero r, List.map_id]
      simp only [hfull]
      rfl
    · intro x hx; rw [hfull]; have := hw x hx; omega
    · rintro ⟨t, htm, htw⟩
      exact ⟨t, htm, by rw [hfull]; omega⟩

/-! ### Convolution -/

theorem taps_at' (c : Cfg) (g : List α → β) (x : List α) (o : Nat) : g (taps c x o) = at' c g x o := rfl

theorem maskRow_get (l : Int) (r : List β) (j : Nat) : (maskRow l r)[j]? = (r[j]?).map fun y => if (j : Int) < l then y else 0 := by
  simp [maskRow, List.getElem?_mapIdx]

theorem nOut_mono (c : Cfg) (hv : c.Valid) {m n : Nat} (h : m ≤ n) : nOut c m ≤ nOut c n := by
  by_contra hc
  have h1 := (lt_nOut c hv m (nOut c n)).1 (by omega)
  have h2 := (lt_nOut c hv n (nOut c n)).2 (by omega)
  omega

/-- One output row: the convolution of the row's frames, then zeros. -/
theorem row_out (c : Cfg) (hv : c.Valid) (g : List α → β) (f : List α) (w : Nat) (hf : f.length ≤ w) :
    maskRow (outLen c (f.length : Int)) ((List.range (nOut c w)).map fun o => at' c g (f ++ zeros (w - f.length)) (o * c.stride)) =
      conv c g f ++ zeros (nOut c w - (conv c g f).length) := by
  rw [outLen_eq c hv, conv_length c hv]
  have hmono := nOut_mono c hv hf
  apply List.ext_getElem?
  intro j
  rw [maskRow_get, List.getElem?_map]
  by_cases h1 : j < nOut c f.length
  · rw [List.getElem?_append_left (by rw [conv_length c hv]; exact h1), conv_eq c hv, List.getElem?_map,
      List.getElem?_range (by omega), List.getElem?_range h1]
    simp only [Option.map_some]
    rw [if_pos (by omega)]
    congr 1
    apply at'_congr c hv
    intro k hk
    have := (lt_nOut c hv _ _).1 h1
    exact getD_append_left' _ _ _ (by omega)
  · rw [List.getElem?_append_right (by rw [conv_length c hv]; omega), conv_length c hv]
    by_cases h2 : j < nOut c w
    · rw [List.getElem?_range h2]
      simp only [Option.map_some]
      rw [if_neg (by omega)]
      simp [zeros, List.getElem?_replicate]
      omega
    · rw [List.getElem?_eq_none (by simpa using h2)]
      simp [zeros, List.getElem?_replicate]
      omega

/-- What is kept of a chunk's frames for the next call. -/
def left (c : Cfg) (f : List α) : List α := f.drop (nOut c f.length * c.stride)

/-- The entries of the new buffer. -/
def items (c : Cfg) (f : Chunk α → List α) (cs : List (Chunk α)) : List (String × List α) :=
  if c.kw > 1 then cs.filterMap fun x => if x.eos then none else some (x.id, left c (f x)) else []

theorem bufItems_map (c : Cfg) (hv : c.Valid) (f : Chunk α → List α) (w : Nat) (cs : List (Chunk α)) :
    bufItems c (cs.map (·.id)) (cs.map (·.eos)) (cs.map fun x => ((f x).length : Int)) (cs.map fun x => f x ++ zeros (w - (f x).length)) =
      cs.filterMap fun x => if x.eos then none else some (x.id, left c (f x)) := by
  induction cs with
  | nil => rfl
  | cons x xs ih =>
    simp only [List.map_cons, bufItems]
    rw [ih, List.filterMap_cons]
    unfold bufItem
    rw [outLen_eq c hv]
    cases x.eos with
    | true => simp
    | false =>
      simp only [Bool.false_eq_true, if_false, Option.toList_some, List.singleton_append, List.cons.injEq, and_true,
        Prod.mk.injEq, true_and]
      unfold left
      rw [show ((nOut c (f x).length : Int) * (c.stride : Int)).toNat = nOut c (f x).length * c.stride by
        rw [← Int.natCast_mul]; exact Int.toNat_natCast _]
      simp

/-- The convolution after the padding block: `f x` is what the kernel sees of chunk `x`. -/
theorem conv1d_rows (c : Cfg) (hv : c.Valid) (g : List α → β) (b : Bool) (w : Nat) (cs : List (Chunk α)) (f : Chunk α → List α) (p' w0 : Nat) (rows : List (List α))
    (hap : applyPadding c (pk b w cs) = .ok ({ (pk b w cs).md with lengths := cs.map fun x => ((f x).length : Int) }, p', w0, rows))
    (hrows : rows.map (fpad p' p') = cs.map (fun x => f x ++ zeros (w0 + 2 * p' - (f x).length)))
    (hle : ∀ x ∈ cs, (f x).length ≤ w0 + 2 * p') (hp' : p' = 0 ∨ allEos cs = true) :
    conv1d c g (pk b w cs) = if w0 + 2 * p' < c.kw then .error .runtimeError
        else .ok (pk b (nOut c (w0 + 2 * p')) (cs.map fun x => x.set b (conv c g (f x))), items c f cs) := by
  unfold conv1d
  rw [hap, Except.bind_ok']
  simp only
  unfold torchConv1d
  by_cases hk : w0 + 2 * p' < c.kw
  · rw [if_pos hk, if_pos hk, Except.bind_error']
  · rw [if_neg hk, if_neg hk, Except.bind_ok']
    simp only [Except.ok.injEq, Prod.mk.injEq]
    have hn : (w0 + 2 * p' - c.kw) / c.stride + 1 = nOut c (w0 + 2 * p') := by
      unfold nOut; rw [if_neg hk]
    rw [hn]
    have hys : (rows.map fun r => (List.range (nOut c (w0 + 2 * p'))).map fun o => g (taps c (fpad p' p' r) (o * c.stride))) =
        cs.map fun x => (List.range (nOut c (w0 + 2 * p'))).map fun o => at' c g (f x ++ zeros (w0 + 2 * p' - (f x).length)) (o * c.stride) := by
      have := congrArg (List.map fun r => (List.range (nOut c (w0 + 2 * p'))).map fun o => at' c g r (o * c.stride)) hrows
      rw [List.map_map, List.map_map] at this
      exact this
    rw [hys]
    constructor
    · rw [pk_set b w]
      simp only [List.map_map]
      congr 1
      · congr 1
        apply List.map_congr_left
        intro x hx
        simp only [Function.comp_apply]
        rw [outLen_eq c hv, conv_length c hv]
      · rw [zipWith_map_same]
        apply List.map_congr_left
        intro x hx
        simp only [Function.comp_apply]
        exact row_out c hv g (f x) _ (hle x hx)
    · unfold tempBuffer items
      have he : ({ (pk b w cs).md with lengths := cs.map fun x => ((f x).length : Int) } : Meta).allEnding = allEos cs := pk_allEnding b w cs
      rw [he]
      have h1 : ({ (pk b w cs).md with lengths := cs.map fun x => ((f x).length : Int) } : Meta).ids = cs.map (·.id) := pk_ids b w cs
      have h2 : ({ (pk b w cs).md with lengths := cs.map fun x => ((f x).length : Int) } : Meta).eos = cs.map (·.eos) := pk_eos b w cs
      rw [h1, h2]
      by_cases hkw : c.kw > 1
      · rw [if_pos hkw]
        cases hE : allEos cs with
        | true =>
          rw [if_neg (by simp)]
          symm
          rw [List.filterMap_eq_nil_iff]
          intro x hx
          have : x.eos = true := List.all_eq_true.1 hE x hx
          simp [this]
        | false =>
          rw [if_pos ⟨hkw, rfl⟩]
          rcases hp' with hp' | hp'
          · subst hp'
            rw [show (fpad 0 0 : List α → List α) = id by funext r; exact fpad_zero r, List.map_id] at hrows
            rw [hrows]
            exact bufItems_map c hv f _ cs
          · rw [hE] at hp'; simp at hp'
      · rw [if_neg hkw, if_neg (by simp [hkw])]

theorem conv1d_pk (c : Cfg) (hv : c.Valid) (g : List α → β) (b : Bool) (w : Nat) (cs : List (Chunk α)) (hne : cs ≠ [])
    (hw : ∀ x ∈ cs, x.frames.length ≤ w) (hwidth : WidthOK c w cs) :
    ∃ w', (∀ x ∈ cs, (full c x).length ≤ w') ∧ (Tight w cs → ∃ x ∈ cs, (full c x).length = w') ∧
      conv1d c g (pk b w cs) = if w' < c.kw then .error .runtimeError
        else .ok (pk b (nOut c w') (cs.map fun x => x.set b (conv c g (full c x))), items c (full c) cs) := by
  obtain ⟨p', w0, rows, hap, hrows, hle, hp', htight⟩ := applyPadding_pk c b w cs hne hw hwidth
  refine ⟨w0 + 2 * p', hle, htight, ?_⟩
  exact conv1d_rows c hv g b w cs (full c) p' w0 rows hap hrows hle hp'

/-! ### Post-hook -/

theorem update_not_mem (buf : Buf α) (kvs : List (String × List α)) (i : String) (h : ∀ kv ∈ kvs, kv.1 ≠ i) :
    update buf kvs i = buf i := by
  unfold update
  induction kvs generalizing buf with
  | nil => rfl
  | cons kv kvs ih =>
    rw [List.foldl_cons, ih _ (fun k hk => h k (by simp [hk]))]
    have := h kv (by simp)
    rw [if_neg (fun hc => this hc.symm)]

theorem update_mem (buf : Buf α) (kvs : List (String × List α)) (hnd : (kvs.map (·.1)).Nodup) (kv : String × List α) (h : kv ∈ kvs) :
    update buf kvs kv.1 = some kv.2 := by
  induction kvs generalizing buf with
  | nil => simp at h
  | cons k kvs ih =>
    simp only [List.map_cons, List.nodup_cons] at hnd
    have hc : update buf (k :: kvs) = update (fun i => if i = k.1 then some k.2 else buf i) kvs := rfl
    rw [hc]
    rcases List.mem_cons.1 h with rfl | h
    · rw [update_not_mem _ _ _ (by
        intro k' hk' he
        exact hnd.1 (by rw [← he]; exact List.mem_map_of_mem hk'))]
      simp
    · exact ih _ hnd.2 h

theorem dropEnded_go (buf : Buf α) (xs : List (String × Bool)) (i : String) :
    (xs.foldl (fun (b : Buf α) ie => if ie.2 then fun i => if i = ie.1 then none else b i else b) buf) i =
      if (i, true) ∈ xs then none else buf i := by
  induction xs generalizing buf with
  | nil => simp
  | cons x xs ih =>
    rw [List.foldl_cons, ih]
    by_cases h : (i, true) ∈ xs
    · simp [h]
    · rw [if_neg h]
      obtain ⟨a, e⟩ := x
      cases e with
      | true =>
        by_cases ha : i = a
        · subst ha; simp
        · simp [ha, h]
      | false => simp [h]

theorem postHook_pk (c : Cfg) (buf : Buf α) (cs : List (Chunk α)) (f : Chunk α → List α) (m : Meta)
    (hids : m.ids = cs.map (·.id)) (heos : m.eos = cs.map (·.eos)) (hnd : (cs.map (·.id)).Nodup) :
    (∀ x ∈ cs, postHook buf m (items c f cs) x.id = if x.eos then none else if c.kw > 1 then some (left c (f x)) else buf x.id) ∧
    (∀ i, (∀ x ∈ cs, x.id ≠ i) → postHook buf m (items c f cs) i = buf i) := by
  have hzip : m.ids.zip m.eos = cs.map fun x => (x.id, x.eos) := by
    rw [hids, heos]; exact zipWith_map_same Prod.mk _ _ cs
  have hitems : ∀ kv ∈ items c f cs, ∃ x ∈ cs, x.eos = false ∧ kv = (x.id, left c (f x)) := by
    intro kv hkv
    unfold items at hkv
    split at hkv
    · obtain ⟨x, hx, he⟩ := List.mem_filterMap.1 hkv
      cases hxe : x.eos with
      | true => simp [hxe] at he
      | false => simp [hxe] at he; exact ⟨x, hx, hxe, he.symm⟩
    · simp at hkv
  have hinj : ∀ x ∈ cs, ∀ y ∈ cs, x.id = y.id → x = y := by
    intro x hx y hy he
    exact (List.inj_on_of_nodup_map hnd) hx hy he
  have hnditems : ((items c f cs).map (·.1)).Nodup := by
    unfold items
    split
    · refine List.Nodup.sublist ?_ hnd
      clear hzip hitems hinj hnd hids heos
      induction cs with
      | nil => simp
      | cons x xs ih =>
        rw [List.filterMap_cons]
        cases x.eos with
        | true => simp; exact List.Sublist.cons _ (by simpa using ih)
        | false => simp; simpa using ih
    · simp
  have hend : ∀ i, ((i, true) ∈ m.ids.zip m.eos ↔ ∃ x ∈ cs, x.id = i ∧ x.eos = true) := by
    intro i
    rw [hzip, List.mem_map]
    constructor
    · rintro ⟨x, hx, he⟩
      simp only [Prod.mk.injEq] at he
      exact ⟨x, hx, he⟩
    · rintro ⟨x, hx, h1, h2⟩
      exact ⟨x, hx, by rw [h1, h2]⟩
  have hpost : ∀ i, postHook buf m (items c f cs) i = if (∃ x ∈ cs, x.id = i ∧ x.eos = true) then none else update buf (items c f cs) i := by
    intro i
    unfold postHook
    split
    · unfold dropEnded
      rw [dropEnded_go]
      by_cases h : ∃ x ∈ cs, x.id = i ∧ x.eos = true
      · rw [if_pos h, if_pos ((hend i).2 h)]
      · rw [if_neg h, if_neg (fun hc => h ((hend i).1 hc))]
    · rename_i h
      rw [if_neg]
      rintro ⟨x, hx, -, he⟩
      apply h
      unfold anyEnding
      rw [heos]
      exact List.any_eq_true.2 ⟨true, by rw [← he]; exact List.mem_map_of_mem (f := fun x : Chunk α => x.eos) hx, rfl⟩
  constructor
  · intro x hx
    rw [hpost]
    cases he : x.eos with
    | true => rw [if_pos ⟨x, hx, rfl, he⟩]; simp
    | false =>
      rw [if_neg (by
        rintro ⟨y, hy, h1, h2⟩
        have := hinj y hy x hx h1
        subst this
        rw [he] at h2; simp at h2)]
      simp only [Bool.false_eq_true, if_false]
      by_cases hk : c.kw > 1
      · rw [if_pos hk]
        apply update_mem buf _ hnditems (x.id, left c (f x))
        unfold items
        rw [if_pos hk]
        exact List.mem_filterMap.2 ⟨x, hx, by simp [he]⟩
      · rw [if_neg hk]
        apply update_not_mem
        intro kv hkv
        unfold items at hkv
        rw [if_neg hk] at hkv
        simp at hkv
  · intro i hi
    rw [hpost, if_neg (by rintro ⟨x, hx, h1, -⟩; exact hi x hx h1)]
    apply update_not_mem
    intro kv hkv
    obtain ⟨x, hx, -, rfl⟩ := hitems kv hkv
    exact hi x hx

end
end DS.Conv
