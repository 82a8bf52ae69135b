import Verif.Model.DatasetAttr
import Verif.Props.Split
/-!
# C178: the batch size of a dataset can be set later
-/

namespace DS.Data

section
variable {α : Type}

/-- C178, assignments: `None` and positive sizes are accepted and then read back (`None` raises AttributeError when read), others raise AssertionError. -/
theorem C178_set (o : Obj α) (b : Option Int) :
    (∀ n, b = some n → 0 < n → ∃ o', o.set b = .ok o' ∧ o'.get = .ok n ∧ o'.base = o.base) ∧
    (∀ n, b = some n → n ≤ 0 → o.set b = .error .assertionError) ∧
    (b = none → ∃ o', o.set b = .ok o' ∧ o'.get = .error .attributeError ∧ o'.base = o.base) := by
  refine ⟨?_, ?_, ?_⟩
  · rintro n rfl hn
    exact ⟨_, if_pos hn, rfl, rfl⟩
  · rintro n rfl hn
    exact if_neg (by omega)
  · rintro rfl
    exact ⟨_, rfl, rfl, rfl⟩

/-- The last assignment that is accepted. -/
def lastAccepted (first : Option Int) (bs : List (Option Int)) : Option Int := (bs.filter fun b => b.all (0 < ·)).getLastD first

theorem sets_eq (o : Obj α) (bs : List (Option Int)) : o.sets bs = ⟨lastAccepted o.size bs, o.base⟩ := by
  induction bs generalizing o with
  | nil => rfl
  | cons b bs ih =>
    show Obj.sets (match o.set b with | .ok o' => o' | .error _ => o) bs = _
    rw [ih]
    unfold lastAccepted
    cases b with
    | none =>
      rw [List.filter_cons_of_pos (by rfl), List.getLastD_cons]
      rfl
    | some n =>
      by_cases hn : 0 < n
      · rw [List.filter_cons_of_pos (by simpa using hn), List.getLastD_cons]
        simp only [Obj.set, if_pos hn]
      · rw [List.filter_cons_of_neg (by simpa using hn)]
        simp only [Obj.set, if_neg hn]

/-- C178: whatever sizes a dataset was made with and given later, iterating it gives what a dataset made with the last accepted size gives. -/
theorem C178_iter (disk : Disk α) (files : List String) (cs : Rat) (ls : Option (List Rat)) (tf : Option (List α → List α)) (names : Option (List String))
    (md : List (String × Nat × Nat)) (first : Option Int) (sh dl : Bool) (o : Obj α) (h : Obj.new disk files cs ls tf names md first sh dl = .ok o) (bs : List (Option Int))
    (n : Int) (hn : lastAccepted first bs = some n) (order : List String) :
    ∃ o', Obj.new disk files cs ls tf names md (some n) sh dl = .ok o' ∧ (o.sets bs).iter disk order = o'.iter disk order := by
  have hnew : ∀ k : Int, 0 < k → ∃ d : Dataset α, Dataset.new disk files cs ls tf names md k sh dl = .ok d ∧ d.batchSize = k ∧
      ∀ k' : Int, 0 < k' → Dataset.new disk files cs ls tf names md k' sh dl = .ok { d with batchSize := k' } := by
    intro k hk
    unfold Dataset.new
    rw [if_neg (by omega)]
    cases ls with
    | none => exact ⟨_, rfl, rfl, fun k' hk' => by rw [if_neg (by omega)]⟩
    | some l => exact ⟨_, rfl, rfl, fun k' hk' => by rw [if_neg (by omega)]⟩
  obtain ⟨d, hd, -, hall⟩ := hnew 1 (by omega)
  have hfirst : o.size = first ∧ ∃ k, o.base = { d with batchSize := k } := by
    cases first with
    | none =>
      unfold Obj.new at h
      rw [hd] at h
      cases h
      exact ⟨rfl, d.batchSize, rfl⟩
    | some k =>
      unfold Obj.new at h
      dsimp only at h
      by_cases hk : 0 < k
      · rw [hall k hk] at h
        cases h
        exact ⟨rfl, k, rfl⟩
      · unfold Dataset.new at h
        rw [if_pos (Int.not_lt.1 hk)] at h
        cases h
  have hpos : 0 < n := by
    unfold lastAccepted at hn
    cases hl : (bs.filter fun b => b.all (0 < ·)).getLast? with
    | none =>
      rw [List.getLastD_eq_getLast?, hl] at hn
      simp only [Option.getD_none] at hn
      subst hn
      by_contra hc
      unfold Obj.new Dataset.new at h
      dsimp only at h
      rw [if_pos (Int.not_lt.1 hc)] at h
      cases h
    | some b =>
      rw [List.getLastD_eq_getLast?, hl] at hn
      simp only [Option.getD_some] at hn
      subst hn
      simpa using (List.mem_filter.1 (List.mem_of_getLast? hl)).2
  refine ⟨⟨some n, { d with batchSize := n }⟩, ?_, ?_⟩
  · unfold Obj.new
    dsimp only
    rw [hall n hpos]
    rfl
  · obtain ⟨h1, k, h2⟩ := hfirst
    rw [sets_eq, h1, hn, h2]
    rfl

/-- C178: while no size is set, iterating raises AttributeError, whatever the files are. -/
theorem C178_unset (disk : Disk α) (o : Obj α) (bs : List (Option Int)) (h : lastAccepted o.size bs = none) (order : List String) :
    (o.sets bs).iter disk order = .error .attributeError := by
  rw [sets_eq, h]
  rfl

/-- C178: a dataset can be split whether its size is set or not, with the same result. -/
theorem C178_split (disk : Disk α) (o : Obj α) (bs : List (Option Int)) (n b : Int) (sh dl : Bool) (order : List Nat) :
    (o.sets bs).split disk n b sh dl order = o.split disk n b sh dl order := by
  rw [sets_eq]
  rfl

/-- C178: the datasets of a split are those of `C77` in the same order, and the size of each is set to its share of the given batch size. -/
theorem C178_split_sizes (disk : Disk α) (o : Obj α) (n b : Int) (sh dl : Bool) (order : List Nat) :
    (o.split disk n b sh dl order).map (fun os => os.map Obj.base) = o.base.split disk n b sh dl order ∧
    ∀ os, o.split disk n b sh dl order = .ok os → ∀ q ∈ os, q.size = some q.base.batchSize := by
  unfold Obj.split
  cases h : o.base.split disk n b sh dl order with
  | error e => exact ⟨rfl, by intro os hos; cases hos⟩
  | ok ds =>
    refine ⟨?_, ?_⟩
    · simp [Except.bind_ok', Except.map, Function.comp_def]
    · intro os hos q hq
      simp only [Except.bind_ok', Except.ok.injEq] at hos
      subst hos
      obtain ⟨d, _, rfl⟩ := List.mem_map.1 hq
      rfl

end

-- Non-trivial case: made without a size, refused 0, set to 3, then to 2.
/-- Three files of 3, 1 and 2 frames. -/
def exAttrDisk : Disk Nat := fun f => if f = "a" then ([1, 2, 3], 1) else if f = "b" then ([4], 1) else ([5, 6], 1)
/-- Made without a batch size. -/
def exAttr : Py (Obj Nat) := Obj.new exAttrDisk ["a", "b", "c"] 1 none none none [] none false false
example : lastAccepted none [some 0, some 3, some 2, some (-1)] = some 2 := by decide
example : (exAttr.bind fun o => (o.sets [some 0, some 3, some 2, some (-1)]).iter exAttrDisk ["a", "b", "c"]).map (fun r => r.map fun b => b.map fun s => (s.id, s.chunkIndex)) =
    .ok [[("a", 0), ("b", 0)], [("a", 1)], [("a", 2)], [("c", 0)], [("c", 1)]] := by decide +kernel
example : (exAttr.bind fun o => o.iter exAttrDisk ["a", "b", "c"]).map (fun r => r.length) = .error .attributeError := by decide +kernel
example : (exAttr.bind fun o => o.split exAttrDisk 2 4 true false [1, 2, 0]).map (fun r => r.map fun o => (o.size, o.base.files)) =
    .ok [(some 2, ["b", "a"]), (some 2, ["c"])] := by decide +kernel

end DS.Data
