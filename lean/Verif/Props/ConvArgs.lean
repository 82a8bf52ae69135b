import Verif.Model.ConvArgs
import Verif.Props.Conv
/-!
# The arguments of `torch.conv1d` (C147)
-/

namespace DS.Conv

variable {α β : Type} [Zero α] [Zero β]

/-- **C147 is false of the code.** No call of `torch.conv1d` on a StreamTensor with an int as stride or dilation succeeds, whatever the input; these are the defaults, so `torch.conv1d(x, weight)` never works. -/
theorem C147_int_false (ks : Nat) (stride : Num) (padding : Pad) (dilation : Num) (g : List α → β) (x : ST α)
    (h : (∃ n, stride = .int n) ∨ ∃ n, dilation = .int n) : ∀ r, conv1dArgs ks stride padding dilation g x ≠ .ok r := by
  intro r hr
  unfold conv1dArgs at hr
  cases hp : padding.value with
  | error e => rw [hp] at hr; cases hr
  | ok p =>
    rw [hp] at hr
    cases hd : dilation.first with
    | error e => rw [hd] at hr; cases hr
    | ok d =>
      rw [hd] at hr
      simp only [Except.bind_ok'] at hr
      cases ha : applyPadding ⟨ks, d, 1, p⟩ x with
      | error e => rw [ha] at hr; cases hr
      | ok q =>
        rw [ha] at hr
        rcases h with ⟨n, rfl⟩ | ⟨n, rfl⟩
        · cases hr
        · cases hd

/-- **C147 is false of the code, what is raised.** With an int as dilation and a padding that is no list, the exception is a TypeError; with an int as stride it is a TypeError wherever the call with a sequence in its place would have succeeded. -/
theorem C147_int_raised_false (ks n : Nat) (padding : Pad) (g : List α → β) (x : ST α) :
    (∀ (p : Nat) (stride : Num), padding.Means p → (∀ ns, padding ≠ .lst ns) → conv1dArgs ks stride padding (.int n) g x = .error .typeError) ∧
    (∀ (stride dilation : Num) r, conv1dArgs ks stride padding dilation g x = .ok r → conv1dArgs ks (.int n) padding dilation g x = .error .typeError) := by
  constructor
  · intro p stride hp hl
    have hv : ∃ v, padding.value = .ok v := by
      rcases hp with rfl | rfl | rfl | ⟨rfl, h0⟩
      · exact ⟨p, by simp [Pad.value]⟩
      · exact ⟨p, by simp [Pad.value, pyGet, getNonneg, Except.bind_ok']⟩
      · exact absurd rfl (hl _)
      · exact ⟨0, by simp [Pad.value]⟩
    obtain ⟨v, hv⟩ := hv
    unfold conv1dArgs
    rw [hv]
    rfl
  · intro stride dilation r hr
    unfold conv1dArgs at hr ⊢
    cases hp : padding.value with
    | error e => rw [hp] at hr; cases hr
    | ok p =>
      rw [hp] at hr
      cases hd : dilation.first with
      | error e => rw [hd] at hr; cases hr
      | ok d =>
        rw [hd] at hr
        simp only [Except.bind_ok'] at hr ⊢
        cases ha : applyPadding ⟨ks, d, 1, p⟩ x with
        | error e => rw [ha] at hr; cases hr
        | ok y => rfl

/-- **C147 is false of the code, padding.** A list, which torch accepts like a tuple, is a TypeError, and `"same"` raises NotImplementedError. -/
theorem C147_padding_false (ks : Nat) (stride dilation : Num) (g : List α → β) (x : ST α) :
    (∀ ns, conv1dArgs ks stride (.lst ns) dilation g x = .error .typeError) ∧
    conv1dArgs ks stride (.str "same") dilation g x = .error .notImplementedError := by
  refine ⟨fun _ => rfl, ?_⟩
  simp [conv1dArgs, Pad.value, Except.bind_error']

/-- **C147, what is refused.** A negative padding is an AssertionError, an empty tuple an IndexError, and a string other than `"same"` and `"valid"` a TypeError, whatever the other arguments. -/
theorem C147_refused (ks : Nat) (stride dilation : Num) (g : List α → β) (x : ST α) :
    (∀ n : Int, n < 0 → conv1dArgs ks stride (.int n) dilation g x = .error .assertionError) ∧
    (∀ (n : Int) ns, n < 0 → conv1dArgs ks stride (.tup (n :: ns)) dilation g x = .error .assertionError) ∧
    conv1dArgs ks stride (.tup []) dilation g x = .error .indexError ∧
    (∀ s, s ≠ "same" → s ≠ "valid" → conv1dArgs ks stride (.str s) dilation g x = .error .typeError) := by
  refine ⟨?_, ?_, rfl, ?_⟩
  · intro n h
    simp [conv1dArgs, Pad.value, Except.bind_error', show ¬ 0 ≤ n by omega]
  · intro n ns h
    simp [conv1dArgs, Pad.value, Except.bind_error', pyGet, getNonneg, Except.bind_ok', show ¬ 0 ≤ n by omega]
  · intro s h h'
    simp [conv1dArgs, Pad.value, Except.bind_error', h, h']

example : (-1 : Int) < 0 ∧ "full" ≠ "same" ∧ "full" ≠ "valid" := by decide

theorem applyPadding_stride (c : Cfg) (s : Nat) (x : ST α) : applyPadding { c with stride := s } x = applyPadding c x := rfl

/-- **C147, the part that holds.** With sequences for stride and dilation, as `torch.nn.Conv1d` passes them, and any other spelling of the padding, the call is the convolution with those numbers (C51 and the others), exceptions included. Missing: ints for stride and dilation, a list for padding. -/
theorem C147_seq_partial (c : Cfg) (stride dilation : Num) (padding : Pad) (g : List α → β) (x : ST α) (hs : stride = .seq [c.stride]) (hd : dilation = .seq [c.dil])
    (hp : padding.Means c.padding) (hl : ∀ ns, padding ≠ .lst ns) :
    conv1dArgs c.ks stride padding dilation g x = conv1d c g x := by
  subst hs hd
  have hv : padding.value = .ok c.padding := by
    rcases hp with rfl | rfl | rfl | ⟨rfl, h0⟩
    · simp [Pad.value]
    · simp [Pad.value, pyGet, getNonneg, Except.bind_ok']
    · exact absurd rfl (hl _)
    · simp [Pad.value, h0]
  have hf : ∀ n : Nat, (Num.seq [n]).first = .ok n := by
    intro n
    simp [Num.first, pyGet, getNonneg]
  unfold conv1dArgs
  rw [hv, hf, hf]
  simp only [Except.bind_ok']
  cases ha : applyPadding ⟨c.ks, c.dil, 1, c.padding⟩ x with
  | ok q => rfl
  | error e =>
    have : applyPadding c x = .error e := ha
    simp [Except.bind_error', conv1d, this]

/-- A complete sequence of three frames, kernel size 2, stride 1, padding 1 given as a tuple: four outputs; with the default stride the call is a TypeError. -/
example :
    (conv1dArgs 2 (.seq [1]) (.tup [1]) (.seq [1]) List.sum (⟨⟨["a"], [true], [true], [3], none⟩, 3, [[1, 2, 3]]⟩ : ST Int)).toOption.map (·.1.rows) = some [[1, 3, 5, 3]] ∧
    (conv1dArgs 2 (.int 1) (.tup [1]) (.seq [1]) List.sum (⟨⟨["a"], [true], [true], [3], none⟩, 3, [[1, 2, 3]]⟩ : ST Int)) = .error .typeError ∧
    (Pad.tup [1]).Means 1 := by
  refine ⟨by decide +kernel, by decide +kernel, .inr (.inl rfl)⟩

end DS.Conv
