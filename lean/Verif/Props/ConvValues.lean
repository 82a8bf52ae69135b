import Verif.Lemmas.ConvMap
import Verif.Model.ConvMem
import Mathlib.Data.List.Forall2
/-! # C198: the values of frames influence nothing but values. C205: superposition -/

namespace DS.Conv
section
variable {α γ : Type} [Zero α] [Zero γ]

/-- The layer `l'` does on mapped frames what `l` does on the frames. -/
inductive Layer.Along (f : α → γ) : Layer α → Layer γ → Prop
  | conv (c : Cfg) (g : List α → α) (g' : List γ → γ) (h : ∀ ws, g' (ws.map f) = f (g ws)) : Layer.Along f (.conv c g) (.conv c g')
  | act (a : α → α) (a' : γ → γ) (h : ∀ v, a' (f v) = f (a v)) : Layer.Along f (.act a) (.act a')

theorem step_map {f : α → γ} (hf : f 0 = 0) {l : Layer α} {l' : Layer γ} (h : l.Along f l') (b : Buf α) (x : ST α) :
    l'.step (b.map f) (x.map f) = (l.step b x).map fun r => (r.1.map f, r.2.map f) := by
  cases h with
  | conv c g g' h =>
    show (forward c g' (b.map f) (x.map f)).map _ = ((forward c g b x).map _).map _
    rw [forward_map hf hf h]
    cases forward c g b x <;> rfl
  | act a a' h =>
    simp only [Layer.step, ST.map, Except.map, List.map_map, Except.ok.injEq, Prod.mk.injEq, and_true]
    congr 1
    apply List.map_congr_left
    intro r _
    simp only [Function.comp_apply, List.map_map]
    apply List.map_congr_left
    intro v _
    exact h v

/-- The same stack on mapped frames, with mapped buffers. -/
def StackAlong (f : α → γ) : List (Layer α × Buf α) → List (Layer γ × Buf γ) → Prop :=
  List.Forall₂ fun a a' => a.1.Along f a'.1 ∧ a'.2 = a.2.map f

theorem chainTry_map {f : α → γ} (hf : f 0 = 0) {s : List (Layer α × Buf α)} {s' : List (Layer γ × Buf γ)} (h : StackAlong f s s') (x : ST α) :
    (chainTry s' (x.map f)).1 = (chainTry s x).1.map (ST.map f) ∧ StackAlong f (chainTry s x).2 (chainTry s' (x.map f)).2 := by
  induction h generalizing x with
  | nil => exact ⟨rfl, .nil⟩
  | @cons a a' s s' ha hs ih =>
    obtain ⟨l, b⟩ := a
    obtain ⟨l', b'⟩ := a'
    obtain ⟨h1, h2⟩ := ha
    dsimp only at h1 h2
    subst h2
    have hst := step_map hf h1 b x
    unfold chainTry
    cases hr : l.step b x with
    | error e =>
      rw [hr] at hst
      rw [hst]
      exact ⟨rfl, .cons ⟨h1, rfl⟩ hs⟩
    | ok r =>
      rw [hr] at hst
      rw [hst]
      simp only [Except.map]
      exact ⟨(ih r.1).1, .cons ⟨h1, rfl⟩ (ih r.1).2⟩

theorem chainCalls_map {f : α → γ} (hf : f 0 = 0) {s : List (Layer α × Buf α)} {s' : List (Layer γ × Buf γ)} (h : StackAlong f s s') (xs : List (ST α)) :
    (chainCalls s' (xs.map (ST.map f))).1 = (chainCalls s xs).1.map (Except.map (ST.map f)) ∧ StackAlong f (chainCalls s xs).2 (chainCalls s' (xs.map (ST.map f))).2 := by
  induction xs generalizing s s' with
  | nil => exact ⟨rfl, h⟩
  | cons x xs ih =>
    obtain ⟨h1, h2⟩ := chainTry_map hf h x
    obtain ⟨h3, h4⟩ := ih h2
    refine ⟨?_, h4⟩
    simp only [List.map_cons, chainCalls, h1, h3]

/-- Equal metadata, widths and lengths of rows; the frames may be anything. -/
def SameShape (x : ST α) (y : ST γ) : Prop := x.md = y.md ∧ x.width = y.width ∧ x.rows.map List.length = y.rows.map List.length

/-- The configuration of a convolution, `none` for a pointwise layer. -/
def Layer.form : Layer α → Option Cfg
  | .conv c _ => some c
  | .act _ => none

/-- The same exception, or outputs of the same shape with equal metadata. -/
def SameOutcome (r : Py (ST α)) (r' : Py (ST γ)) : Prop :=
  (∃ e, r = .error e ∧ r' = .error e) ∨ ∃ y y', r = .ok y ∧ r' = .ok y' ∧ SameShape y y'

/-- The frames replaced by 0. -/
def blank (x : ST α) : ST Nat := x.map fun _ => 0

theorem blank_eq {x : ST α} {y : ST γ} : blank x = blank y ↔ SameShape x y := by
  obtain ⟨m, w, rows⟩ := x
  obtain ⟨m', w', rows'⟩ := y
  have key : (rows.map (List.map fun _ => (0 : Nat)) = rows'.map (List.map fun _ => (0 : Nat))) ↔ rows.map List.length = rows'.map List.length := by
    have e : ∀ {δ : Type}, (List.map fun (_ : δ) => (0 : Nat)) = fun r => List.replicate r.length 0 := by
      intro δ
      funext r
      simp
    constructor
    · intro h
      have := congrArg (List.map List.length) h
      simpa [Function.comp_def] using this
    · intro h
      have := congrArg (List.map fun n => List.replicate n (0 : Nat)) h
      rw [e, e]
      simpa [Function.comp_def] using this
  simp only [blank, ST.map, SameShape, ST.mk.injEq, key]

/-- A layer on blank frames. -/
def Layer.blanked : Option Cfg → Layer Nat
  | some c => .conv c fun _ => 0
  | none => .act fun _ => 0

theorem along_blank (l : Layer α) : l.Along (fun _ => (0 : Nat)) (Layer.blanked l.form) := by
  cases l with
  | conv c g => exact .conv c g _ fun _ => rfl
  | act a => exact .act a _ fun _ => rfl

/-- A freshly patched stack. -/
def newStack (ls : List (Layer α)) : List (Layer α × Buf α) := ls.map fun l => (l, fun _ => none)

theorem stack_blank (ls : List (Layer α)) : StackAlong (fun _ => (0 : Nat)) (newStack ls) (newStack (ls.map fun l => Layer.blanked l.form)) := by
  induction ls with
  | nil => exact .nil
  | cons l ls ih => exact .cons ⟨along_blank l, rfl⟩ ih

/-- **C198.** Two patched stacks whose convolutions have the same configurations (kernel size, dilation, stride, padding), with whatever weights and pointwise functions, are called with batches that have equal metadata and shapes, with whatever frames (of whatever type): call by
call, also after calls that raised, both raise the same exception or give outputs with equal metadata and shapes. So values of frames and weights decide neither what is accepted, nor how long outputs are, nor which streams they belong to. -/
theorem C198_shapes (ls : List (Layer α)) (ls' : List (Layer γ)) (hl : ls.map Layer.form = ls'.map Layer.form) (xs : List (ST α)) (xs' : List (ST γ)) (hx : List.Forall₂ SameShape xs xs') :
    List.Forall₂ SameOutcome (chainCalls (newStack ls) xs).1 (chainCalls (newStack ls') xs').1 := by
  have h1 := (chainCalls_map rfl (stack_blank ls) xs).1
  have h2 := (chainCalls_map rfl (stack_blank ls') xs').1
  have e1 : (ls.map fun l => Layer.blanked l.form) = ls'.map fun l => Layer.blanked l.form := by
    have := congrArg (List.map Layer.blanked) hl
    simpa [Function.comp_def] using this
  have e2 : xs.map (ST.map fun _ => (0 : Nat)) = xs'.map (ST.map fun _ => (0 : Nat)) := by
    clear h1 h2
    induction hx with
    | nil => rfl
    | cons h _ ih => rw [List.map_cons, List.map_cons, ih]; congr 1; exact blank_eq.2 h
  rw [e1, e2, h2] at h1
  generalize (chainCalls (newStack ls) xs).1 = rs at h1
  generalize (chainCalls (newStack ls') xs').1 = rs' at h1
  clear h2 e2 e1 hl hx
  induction rs generalizing rs' with
  | nil => cases rs' with | nil => exact .nil | cons => cases h1
  | cons r rs ih =>
    cases rs' with
    | nil => cases h1
    | cons r' rs' =>
      rw [List.map_cons, List.map_cons, List.cons.injEq] at h1
      refine .cons ?_ (ih rs' h1.2)
      cases r with
      | error e =>
        cases r' with
        | error e' => have := h1.1; simp only [Except.map, Except.error.injEq] at this; subst this; exact .inl ⟨_, rfl, rfl⟩
        | ok y' => have := h1.1; simp [Except.map] at this
      | ok y =>
        cases r' with
        | error e' => have := h1.1; simp [Except.map] at this
        | ok y' =>
          have := h1.1
          simp only [Except.map, Except.ok.injEq] at this
          exact .inr ⟨y, y', rfl, rfl, blank_eq.1 this.symm⟩

/-- Two streams in two calls, and another pair of streams with the same shape and a different type of frames. -/
example : List.Forall₂ SameShape ([⟨⟨["a", "b"], [true, true], [false, true], [3, 2], none⟩, 3, [[1, 2, 3], [4, 5, 0]]⟩, ⟨⟨["a"], [false], [true], [1], none⟩, 1, [[9]]⟩] : List (ST Int))
    ([⟨⟨["a", "b"], [true, true], [false, true], [3, 2], none⟩, 3, [[7, 7, 7], [8, 0, 0]]⟩, ⟨⟨["a"], [false], [true], [1], none⟩, 1, [[0]]⟩] : List (ST Nat)) ∧
    ((chainCalls (newStack [.conv ⟨2, 1, 1, 1⟩ List.sum, .act (- ·)]) ([⟨⟨["a", "b"], [true, true], [false, true], [3, 2], none⟩, 3, [[1, 2, 3], [4, 5, 0]]⟩, ⟨⟨["a"], [false], [true], [1], none⟩, 1, [[9]]⟩] : List (ST Int))).1.map
      (Except.map fun y => (y.md.lengths, y.rows))) = [.ok ([3, 3], [[-1, -3, -5], [-4, -9, -5]]), .ok ([2], [[-12, -9]])] ∧
    ((chainCalls (newStack [.conv ⟨2, 1, 1, 1⟩ List.prod, .act (· + 1)]) ([⟨⟨["a", "b"], [true, true], [false, true], [3, 2], none⟩, 3, [[7, 7, 7], [8, 0, 0]]⟩, ⟨⟨["a"], [false], [true], [1], none⟩, 1, [[0]]⟩] : List (ST Nat))).1.map
      (Except.map fun y => (y.md.lengths, y.rows))) = [.ok ([3, 3], [[1, 50, 50], [1, 1, 1]]), .ok ([2], [[1, 1]])] := by
  refine ⟨.cons ⟨rfl, rfl, rfl⟩ (.cons ⟨rfl, rfl, rfl⟩ .nil), by decide +kernel, by decide +kernel⟩

/-- **C198**, values: a map of the frames that keeps 0 (a gain, a change of sign, a permutation of channels) and with which all layers commute may be applied to the inputs or to the outputs, call by call: the same exceptions, metadata and frames, also after calls
that raised. -/
theorem C198_map (f : α → α) (hf : f 0 = 0) (ls : List (Layer α)) (hc : ∀ c g, Layer.conv c g ∈ ls → ∀ ws, g (ws.map f) = f (g ws)) (ha : ∀ a, Layer.act a ∈ ls → ∀ v, a (f v) = f (a v)) (xs : List (ST α)) :
    (chainCalls (newStack ls) (xs.map fun x => { x with rows := x.rows.map (·.map f) })).1 =
      (chainCalls (newStack ls) xs).1.map (Except.map fun y => { y with rows := y.rows.map (·.map f) }) := by
  have h : StackAlong f (newStack ls) (newStack ls) := by
    induction ls with
    | nil => exact .nil
    | cons l ls ih =>
      refine .cons ⟨?_, rfl⟩ (ih (fun c g hm => hc c g (by simp [hm])) fun a hm => ha a (by simp [hm]))
      cases l with
      | conv c g => exact .conv c g g (hc c g (by simp))
      | act a => exact .act a a (ha a (by simp))
  exact (chainCalls_map hf h xs).1

/-- A gain of 3 through a convolution and a rectifier. -/
example : (∀ ws : List Int, (ws.map (3 * ·)).sum = 3 * ws.sum) ∧ (∀ v : Int, max (3 * v) 0 = 3 * max v 0) ∧
    ((chainCalls (newStack [.conv ⟨2, 1, 1, 1⟩ List.sum, .act (max · 0)]) ([⟨⟨["a"], [true], [false], [3], none⟩, 3, [[3, -6, 9]]⟩] : List (ST Int))).1.map (Except.map fun y => y.rows)) = [.ok [[3, 0, 3]]] ∧
    ((chainCalls (newStack [.conv ⟨2, 1, 1, 1⟩ List.sum, .act (max · 0)]) ([⟨⟨["a"], [true], [false], [3], none⟩, 3, [[1, -2, 3]]⟩] : List (ST Int))).1.map (Except.map fun y => y.rows)) = [.ok [[1, 0, 1]]] := by
  refine ⟨fun ws => ?_, fun v => by omega, by decide +kernel, by decide +kernel⟩
  induction ws with
  | nil => rfl
  | cons w ws ih => simp only [List.map_cons, List.sum_cons, ih]; omega

end

section
variable {α : Type} [Zero α]

/-- Two batches added frame by frame; metadata of the first. -/
def ST.plus (op : α → α → α) (x y : ST α) : ST α := { x with rows := List.zipWith (List.zipWith op) x.rows y.rows }

/-- Three outcomes: the same exception three times, or outputs of the same shape of which the third is the sum of the others. -/
def SumOutcome (op : α → α → α) (r r' r'' : Py (ST α)) : Prop :=
  (∃ e, r = .error e ∧ r' = .error e ∧ r'' = .error e) ∨ ∃ y y', r = .ok y ∧ r' = .ok y' ∧ SameShape y y' ∧ r'' = .ok (y.plus op y')

instance pairZero : Zero (α × α) := ⟨(0, 0)⟩

/-- Both batches as one batch of pairs. -/
def pairUp (x y : ST α) : ST (α × α) := { md := x.md, width := x.width, rows := List.zipWith List.zip x.rows y.rows }

theorem pairUp_maps (op : α → α → α) (x y : ST α) (h : SameShape x y) :
    (pairUp x y).map Prod.fst = x ∧ (pairUp x y).map Prod.snd = y ∧ (pairUp x y).map (fun q => op q.1 q.2) = x.plus op y := by
  obtain ⟨m, w, rows⟩ := x
  obtain ⟨m', w', rows'⟩ := y
  obtain ⟨h1, h2, h3⟩ := h
  dsimp only at h1 h2 h3
  subst h1 h2
  simp only [pairUp, ST.map, ST.plus, ST.mk.injEq, true_and]
  induction rows generalizing rows' with
  | nil =>
    cases rows' with
    | nil => simp
    | cons => simp at h3
  | cons r rows ih =>
    cases rows' with
    | nil => simp at h3
    | cons r' rows' =>
      simp only [List.map_cons, List.cons.injEq] at h3
      obtain ⟨i1, i2, i3⟩ := ih rows' h3.2
      simp only [List.zipWith_cons_cons, List.map_cons, i1, i2, i3, List.cons.injEq, and_true]
      refine ⟨List.map_fst_zip (by omega), List.map_snd_zip (by omega), ?_⟩
      rw [List.zip, List.map_zipWith]

/-- Both copies of a layer side by side. -/
def Layer.twin : Layer α → Layer (α × α)
  | .conv c g => .conv c fun ws => (g (ws.map Prod.fst), g (ws.map Prod.snd))
  | .act a => .act fun v => (a v.1, a v.2)

theorem stack_twin {f : α × α → α} (ls : List (Layer α)) (h : ∀ l ∈ ls, l.twin.Along f l) : StackAlong f (newStack (ls.map Layer.twin)) (newStack ls) := by
  induction ls with
  | nil => exact .nil
  | cons l ls ih => exact .cons ⟨h l (by simp), rfl⟩ (ih fun q hq => h q (by simp [hq]))

/-- **C205.** Superposition: when every convolution and every pointwise function of a stack commutes with an operation on frames (the sum, for linear ones) that gives 0 for zeros, then calls on the sums of two histories of batches with equal metadata and shapes raise what the calls on the two
histories raise, and otherwise give the sums of their outputs, call by call, also after calls that raised. -/
theorem C205_superposition (op : α → α → α) (h0 : op 0 0 = 0) (ls : List (Layer α)) (hc : ∀ c g, Layer.conv c g ∈ ls → ∀ ws : List (α × α), g (ws.map fun q => op q.1 q.2) = op (g (ws.map Prod.fst)) (g (ws.map Prod.snd)))
    (ha : ∀ a, Layer.act a ∈ ls → ∀ v v', a (op v v') = op (a v) (a v')) (xs xs' : List (ST α)) (hx : List.Forall₂ SameShape xs xs') :
    (chainCalls (newStack ls) xs).1.length = xs.length ∧ ∀ (k : Nat) (r r' r'' : Py (ST α)), (chainCalls (newStack ls) xs).1[k]? = some r → (chainCalls (newStack ls) xs').1[k]? = some r' →
      (chainCalls (newStack ls) (List.zipWith (ST.plus op) xs xs')).1[k]? = some r'' → SumOutcome op r r' r'' := by
  have hl : ∀ (s : List (Layer α × Buf α)) (xs : List (ST α)), (chainCalls s xs).1.length = xs.length := by
    intro s xs
    induction xs generalizing s with
    | nil => rfl
    | cons x xs ih => simp [chainCalls, ih]
  refine ⟨hl _ _, ?_⟩
  have A1 : ∀ l ∈ ls, l.twin.Along Prod.fst l := by
    intro l _
    cases l with
    | conv c g => exact .conv c _ g fun _ => rfl
    | act a => exact .act _ a fun _ => rfl
  have A2 : ∀ l ∈ ls, l.twin.Along Prod.snd l := by
    intro l _
    cases l with
    | conv c g => exact .conv c _ g fun _ => rfl
    | act a => exact .act _ a fun _ => rfl
  have A3 : ∀ l ∈ ls, l.twin.Along (fun q => op q.1 q.2) l := by
    intro l hm
    cases l with
    | conv c g => exact .conv c _ g (hc c g hm)
    | act a => exact .act _ a fun v => ha a hm v.1 v.2
  have M1 := (chainCalls_map (f := Prod.fst) rfl (stack_twin ls A1) (List.zipWith pairUp xs xs')).1
  have M2 := (chainCalls_map (f := Prod.snd) rfl (stack_twin ls A2) (List.zipWith pairUp xs xs')).1
  have M3 := (chainCalls_map (f := fun q : α × α => op q.1 q.2) h0 (stack_twin ls A3) (List.zipWith pairUp xs xs')).1
  have e : (List.zipWith pairUp xs xs').map (ST.map Prod.fst) = xs ∧ (List.zipWith pairUp xs xs').map (ST.map Prod.snd) = xs' ∧
      (List.zipWith pairUp xs xs').map (ST.map fun q => op q.1 q.2) = List.zipWith (ST.plus op) xs xs' := by
    clear M1 M2 M3
    induction hx with
    | nil => exact ⟨rfl, rfl, rfl⟩
    | @cons x x' xs xs' h _ ih =>
      obtain ⟨i1, i2, i3⟩ := ih
      obtain ⟨q1, q2, q3⟩ := pairUp_maps op x x' h
      simp only [List.zipWith_cons_cons, List.map_cons, i1, i2, i3, q1, q2, q3, and_self]
  rw [e.1] at M1
  rw [e.2.1] at M2
  rw [e.2.2] at M3
  intro k r r' r'' k1 k2 k3
  rw [M1, List.getElem?_map] at k1
  rw [M2, List.getElem?_map] at k2
  rw [M3, List.getElem?_map] at k3
  cases hk : (chainCalls (newStack (ls.map Layer.twin)) (List.zipWith pairUp xs xs')).1[k]? with
  | none => rw [hk] at k1; simp at k1
  | some z =>
    rw [hk] at k1 k2 k3
    simp only [Option.map_some, Option.some.injEq] at k1 k2 k3
    subst k1 k2 k3
    cases z with
    | error e => exact .inl ⟨e, rfl, rfl, rfl⟩
    | ok y =>
      refine .inr ⟨_, _, rfl, rfl, ⟨rfl, rfl, by simp [ST.map, Function.comp_def]⟩, ?_⟩
      simp only [Except.map, ST.map, ST.plus, Except.ok.injEq, ST.mk.injEq, true_and]
      rw [List.zipWith_map, List.zipWith_self]
      apply List.map_congr_left
      intro r _
      rw [List.zipWith_map, List.zipWith_self]

/-- Two recordings and their sum through two convolutions and a change of sign. -/
example : (∀ ws : List (Int × Int), (ws.map fun q => q.1 + q.2).sum = (ws.map Prod.fst).sum + (ws.map Prod.snd).sum) ∧ (∀ v v' : Int, -(v + v') = -v + -v') ∧
    ((chainCalls (newStack [.conv ⟨2, 1, 1, 1⟩ List.sum, .act (- ·)]) ([⟨⟨["a"], [true], [false], [3], none⟩, 3, [[3, -6, 9]]⟩, ⟨⟨["a"], [false], [true], [1], none⟩, 1, [[1]]⟩] : List (ST Int))).1.map (Except.map fun y => y.rows)) =
      [.ok [[-3, 3, -3]], .ok [[-10, -1]]] ∧
    ((chainCalls (newStack [.conv ⟨2, 1, 1, 1⟩ List.sum, .act (- ·)]) ([⟨⟨["a"], [true], [false], [3], none⟩, 3, [[1, 1, 2]]⟩, ⟨⟨["a"], [false], [true], [1], none⟩, 1, [[5]]⟩] : List (ST Int))).1.map (Except.map fun y => y.rows)) =
      [.ok [[-1, -2, -3]], .ok [[-7, -5]]] ∧
    ((chainCalls (newStack [.conv ⟨2, 1, 1, 1⟩ List.sum, .act (- ·)]) ([⟨⟨["a"], [true], [false], [3], none⟩, 3, [[4, -5, 11]]⟩, ⟨⟨["a"], [false], [true], [1], none⟩, 1, [[6]]⟩] : List (ST Int))).1.map (Except.map fun y => y.rows)) =
      [.ok [[-4, 1, -6]], .ok [[-17, -6]]] := by
  refine ⟨fun ws => ?_, fun v v' => by omega, by decide +kernel, by decide +kernel, by decide +kernel⟩
  induction ws with
  | nil => rfl
  | cons w ws ih => simp only [List.map_cons, List.sum_cons, ih]; omega

/-- A bias breaks superposition: the output of the sum has it once, the sum of the outputs twice. -/
theorem C205_linear_needed : ∃ (ls : List (Layer Int)) (x x' : ST Int) (y y' y'' : ST Int), SameShape x x' ∧ (chainCalls (newStack ls) [x]).1 = [.ok y] ∧ (chainCalls (newStack ls) [x']).1 = [.ok y'] ∧
    (chainCalls (newStack ls) [x.plus (· + ·) x']).1 = [.ok y''] ∧ y'' ≠ y.plus (· + ·) y' := by
  refine ⟨[.conv ⟨1, 1, 1, 0⟩ fun ws => ws.sum + 1], ⟨⟨["a"], [true], [true], [2], none⟩, 2, [[1, 2]]⟩, ⟨⟨["a"], [true], [true], [2], none⟩, 2, [[3, 4]]⟩,
    ⟨⟨["a"], [true], [true], [2], none⟩, 2, [[2, 3]]⟩, ⟨⟨["a"], [true], [true], [2], none⟩, 2, [[4, 5]]⟩, ⟨⟨["a"], [true], [true], [2], none⟩, 2, [[5, 7]]⟩, ⟨rfl, rfl, rfl⟩, ?_, ?_, ?_, ?_⟩ <;> decide +kernel

end
end DS.Conv
