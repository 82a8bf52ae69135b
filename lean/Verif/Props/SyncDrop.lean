import Verif.Props.FromFilesDrop
import Verif.Props.Truncate
/-! C160 and C169 for loaders with drop_last whose batches must not overlap. -/

namespace DS.Data
open Meta Conv
section
variable {α : Type}

/-- The loader whose batches must not overlap plays what the other one gives. -/
theorem loader_sync (disk : Disk α) (cfg : LoaderCfg) (d : Dataset α) (hover : cfg.overlapping = false) (order : List Nat) (orders : List (List String) → List (List String))
    (fuel : Nat) (r : List (List (Sample α)) × Ended) (h : loader disk cfg d order orders fuel = .ok r) :
    ∃ merged, (∀ n, loader disk { cfg with overlapping := true } d order orders n = .ok (merged, .returned)) ∧ ∀ n, loader disk cfg d order orders n = .ok (sync n merged) := by
  unfold loader at h
  obtain ⟨ds, h1, h⟩ := bind_inv h
  obtain ⟨sts, h2, -⟩ := bind_inv h
  refine ⟨mergeWorkers cfg.dropLast sts, fun n => ?_, fun n => ?_⟩
  · unfold loader
    change (d.split disk (max 1 cfg.numWorkers) cfg.batchSize cfg.shuffle cfg.dropLast order >>= _) = _
    rw [h1, Except.bind_ok', h2, Except.bind_ok']
    rfl
  · unfold loader
    rw [h1, Except.bind_ok', h2, Except.bind_ok']
    unfold loaderBatches
    rw [hover]
    rfl

/-- What is delivered of a file. -/
theorem prefix_open {f : String} {F P : List (Sample α)} {s s' : Sample α} (hF : WholeFile f F) (hp : P ++ [s] <+: F) (hm : Marked s s') : OpenFile f (P ++ [s']) := by
  have hple := hp.length_le
  rw [List.length_append, List.length_singleton] at hple
  refine ⟨by simp, fun k t hk => ?_⟩
  have hkl := (List.getElem?_eq_some_iff.1 hk).1
  rw [List.length_append, List.length_singleton] at hkl
  rw [List.length_append, List.length_singleton]
  have hget : ∀ k t, (P ++ [s])[k]? = some t → t.id = f ∧ (t.sos = true ↔ k = 0) ∧ (t.eos = true ↔ k + 1 = F.length) := by
    intro k t hk
    refine hF.2 k t ?_
    obtain ⟨r, hr⟩ := hp
    rw [← hr, List.getElem?_append_left (List.getElem?_eq_some_iff.1 hk).1]
    exact hk
  by_cases hk' : k < P.length
  · rw [List.getElem?_append_left hk'] at hk
    obtain ⟨a1, a2, a3⟩ := hget k t (by rw [List.getElem?_append_left hk']; exact hk)
    refine ⟨a1, a2, fun h => ?_⟩
    have := a3.1 h
    omega
  · have : k = P.length := by omega
    subst this
    rw [List.getElem?_concat_length, Option.some.injEq] at hk
    subst hk
    obtain ⟨a1, a2, -⟩ := hget P.length s List.getElem?_concat_length
    refine ⟨hm.id.trans a1, ?_, fun _ => rfl⟩
    rcases hm with rfl | rfl <;> exact a2

/-- The merged batches of a loader with drop_last are a stream of beginnings of files. -/
theorem drop_open {d : Dataset α} {S : String → List (Sample α)} {out : List (List (Sample α))} (hS : ∀ x ∈ d.files, WholeFile x (S x))
    (g1 : ∀ f ∈ d.files, ofFile f out.flatten = [] ∨ ∃ P s s', P ++ [s] <+: S f ∧ Marked s s' ∧ ofFile f out.flatten = P ++ [s'])
    (g2 : ∀ b ∈ out, b ≠ [] ∧ (b.map Sample.id).Nodup) (g3 : ∀ s ∈ out.flatten, s.id ∈ d.files) (g4 : out ≠ []) : OpenStream out := by
  refine ⟨?_, fun s hs => ?_⟩
  · obtain ⟨b, rest, rfl⟩ := List.exists_cons_of_ne_nil g4
    exact ⟨b, rest, rfl, g2 b (by simp)⟩
  · have hm : s ∈ ofFile s.id out.flatten := List.mem_filter.2 ⟨hs, by simp⟩
    rcases g1 s.id (g3 s hs) with h0 | ⟨P, t, t', hp, hmk, h0⟩
    · rw [h0] at hm
      cases hm
    · rw [h0]
      exact prefix_open (hS s.id (g3 s hs)) hp hmk

/-- If every file ends, they are whole files. -/
theorem open_ended {out : List (List (Sample α))} (h : OpenStream out) (he : AllEnded out.flatten) : WellFormed out := by
  refine ⟨h.1, fun s hs => ?_⟩
  obtain ⟨h1, h2⟩ := h.2 s hs
  refine ⟨h1, fun k t hk => ?_⟩
  obtain ⟨a1, a2, a3⟩ := h2 k t hk
  refine ⟨a1, a2, a3, fun hl => ?_⟩
  obtain ⟨u, hu, hid, hue⟩ := he s hs
  have hm : u ∈ ofFile s.id out.flatten := List.mem_filter.2 ⟨hu, by simp [hid]⟩
  obtain ⟨j, hj⟩ := List.mem_iff_getElem?.1 hm
  have := (h2 j u hj).2.2 hue
  have hjk : j = k := by omega
  rw [hjk, hk, Option.some.injEq] at hj
  rw [hj]
  exact hue

/-- **C169 (loader).** A loader with drop_last whose batches must not overlap, with any workers: if it raises nothing while its workers are set up, it plays groups of files as in `C169_exact_partial`; what it
plays of a file are its first chunks, the last of them possibly marked as the end. It returns if no group has a longest file without an end, which is so with one worker, and raises RuntimeError otherwise. Missing: as there. -/
theorem C169_loader_partial (disk : Disk α) (cfg : LoaderCfg) (d : Dataset α) (hs : Splittable d) (hdrop : cfg.dropLast = true) (hover : cfg.overlapping = false) (hn : d.files.Nodup)
    (S : String → List (Sample α)) (hf : ∀ x ∈ d.files, processData disk d x = .ok (S x)) (hS : ∀ x ∈ d.files, WholeFile x (S x))
    (order : List Nat) (ho : order.Perm (List.range d.files.length)) (orders : List (List String) → List (List String))
    (hor : ∀ ls, List.Forall₂ List.Perm (orders ls) ls) (fuel : Nat) (r : List (List (Sample α)) × Ended) (h : loader disk cfg d order orders fuel = .ok r) :
    ∃ (F : String → List (Sample α)) (gs : List (List String)) (g : List String),
      (∀ f ∈ d.files, F f = [] ∨ ∃ P s s', P ++ [s] <+: S f ∧ (s' = s ∨ s' = { s with eos := true }) ∧ F f = P ++ [s']) ∧
      (gs ++ [g]).flatten.Nodup ∧ (∀ f ∈ (gs ++ [g]).flatten, f ∈ d.files ∧ F f ≠ []) ∧ (∀ x ∈ gs, ¬ Cut F x) ∧ (cfg.numWorkers ≤ 1 → ¬ Cut F g) ∧
      ((Cut F g ∧ ∃ n, loader disk cfg d order orders n = .ok ((gs ++ [g]).flatMap (rounds F), .raised .runtimeError)) ∨
        (¬ Cut F g ∧ (∀ f ∈ d.files, F f ≠ [] → f ∈ (gs ++ [g]).flatten) ∧ ∃ n, loader disk cfg d order orders n = .ok ((gs ++ [g]).flatMap (rounds F), .returned))) := by
  obtain ⟨merged, hm, hl⟩ := loader_sync disk cfg d hover order orders fuel r h
  obtain ⟨g1, g2, g3, g4, g5⟩ := drop_files disk { cfg with overlapping := true } d hs hdrop rfl hn S hf hS order ho orders hor 0 merged .returned (hm 0)
  have hopen := drop_open hS g1 g2 g3 g4
  obtain ⟨b, rest, rfl⟩ := List.exists_cons_of_ne_nil g4
  obtain ⟨gs, g, -, e2, e7, -, -, e5, e6⟩ := C169_exact_partial b rest hopen
  have hne : ∀ f, ofFile f (b :: rest).flatten ≠ [] → ∃ s ∈ (b :: rest).flatten, s.id = f := by
    intro f h0
    obtain ⟨s, hsm⟩ := List.exists_mem_of_ne_nil _ h0
    obtain ⟨h1, h2⟩ := List.mem_filter.1 hsm
    exact ⟨s, h1, by simpa using h2⟩
  refine ⟨fun j => ofFile j (b :: rest).flatten, gs, g, g1, e2, ?_, e5, ?_, ?_⟩
  · intro f hfm
    obtain ⟨s, hsm, rfl⟩ := hne f (e7 f hfm)
    exact ⟨g3 s hsm, e7 s.id hfm⟩
  · rintro h1 ⟨j, hj, -, s, hlast, heos⟩
    change (ofFile j (b :: rest).flatten).getLast? = some s at hlast
    have hsm : s ∈ ofFile j (b :: rest).flatten := List.mem_of_getLast? hlast
    obtain ⟨hs1, hs2⟩ := List.mem_filter.1 hsm
    have hid : s.id = j := by simpa using hs2
    have hwf := (open_ended hopen (g5 h1)).2 s hs1
    rw [hid] at hwf
    rw [List.getLast?_eq_getElem?] at hlast
    have hpos := List.length_pos_of_mem hsm
    have := (hwf.2 _ s hlast).2.2.2 (by omega)
    rw [heos] at this
    cases this
  · rcases e6 with ⟨h1, n, h2⟩ | ⟨h1, h2, n, h3⟩
    · exact .inl ⟨h1, n, by rw [hl n, h2]⟩
    · refine .inr ⟨h1, fun f _ h0 => ?_, n, by rw [hl n, h3]⟩
      obtain ⟨s, hsm, rfl⟩ := hne f h0
      exact h2 s hsm

/-- **C160**, with drop_last and batches that must not overlap, for one worker: if the loader raises nothing while its workers are set up, it gives batches that are, collated, a valid schedule in which every stream is absent or complete, and that are synchronous as
in C80 and C81. -/
theorem C160_drop_sync [Zero α] (disk : Disk α) (cfg : LoaderCfg) (d : Dataset α) (hs : Splittable d) (hdrop : cfg.dropLast = true) (hover : cfg.overlapping = false) (hn : d.files.Nodup)
    (hone : cfg.numWorkers ≤ 1)
    (S : String → List (Sample α)) (hf : ∀ x ∈ d.files, processData disk d x = .ok (S x)) (hS : ∀ x ∈ d.files, WholeFile x (S x))
    (hlen : ∀ x ∈ d.files, ∀ s ∈ S x, 0 < s.length ∧ s.length ≤ s.data.length)
    (order : List Nat) (ho : order.Perm (List.range d.files.length)) (orders : List (List String) → List (List String))
    (hor : ∀ ls, List.Forall₂ List.Perm (orders ls) ls) (fuel : Nat) (r : List (List (Sample α)) × Ended) (h : loader disk cfg d order orders fuel = .ok r) :
    ∃ n out xs, loader disk cfg d order orders n = .ok (out, .returned) ∧ collateAll out = .ok xs ∧ xs.length = out.length ∧
      (∃ m : Nat, (m : Int) = cfg.batchSize ∧ Synchronous m out ∧ FullButLast m out) ∧
      (∀ x ∈ xs, BatchOK (unpack x) ∧ ∀ c ∈ unpack x, c.frames ≠ []) ∧
      (∀ f ∈ d.files, Conv.chunksOf f (xs.map unpack) = [] ∨
        (Complete (Conv.chunksOf f (xs.map unpack)) ∧
          ∃ P s e, P ++ [s] <+: S f ∧ (s.eos = true → e = true) ∧
            Conv.chunksOf f (xs.map unpack) = (P.map fun s => ⟨f, s.sos, s.eos, some (s.chunkIndex : Int), s.data.take s.length⟩) ++
              [⟨f, s.sos, e, some (s.chunkIndex : Int), s.data.take s.length⟩])) ∧
      ∀ i, i ∉ d.files → Conv.chunksOf i (xs.map unpack) = [] := by
  obtain ⟨merged, hm, hl⟩ := loader_sync disk cfg d hover order orders fuel r h
  obtain ⟨g1, g2, g3, g4, g5⟩ := drop_files disk { cfg with overlapping := true } d hs hdrop rfl hn S hf hS order ho orders hor 0 merged .returned (hm 0)
  obtain ⟨-, g6, -, -⟩ := C230_drop_last disk { cfg with overlapping := true } d hs hdrop rfl S hf hS order ho orders hor 0 merged .returned (hm 0)
  have hwf := open_ended (drop_open hS g1 g2 g3 g4) (g5 hone)
  obtain ⟨n, out, m, ⟨b, rest, hbr, hmb⟩, k1, k2, k3, k4⟩ := sync_spec _ hwf
  have hmem : ∀ s, s ∈ out.flatten ↔ s ∈ merged.flatten := by
    intro s
    have h1 := k2 s.id
    constructor
    · intro hsm
      have : s ∈ ofFile s.id out.flatten := List.mem_filter.2 ⟨hsm, by simp⟩
      rw [h1] at this
      exact (List.mem_filter.1 this).1
    · intro hsm
      have : s ∈ ofFile s.id merged.flatten := List.mem_filter.2 ⟨hsm, by simp⟩
      rw [← h1] at this
      exact (List.mem_filter.1 this).1
  have q2 : ∀ c ∈ out, c ≠ [] ∧ (c.map Sample.id).Nodup := by
    intro c hc
    obtain ⟨pre, post, he⟩ := List.append_of_mem hc
    obtain ⟨a1, -, a3, -⟩ := k3 pre c post he
    exact ⟨a1, a3⟩
  have q4 : out ≠ [] := by
    rintro rfl
    have hb := (g2 b (by rw [hbr]; simp)).1
    obtain ⟨s, hsb⟩ := List.exists_mem_of_ne_nil _ hb
    have := (hmem s).2 (by rw [hbr]; simp [hsb])
    cases this
  have q5 : AllEnded out.flatten := by
    intro s hsm
    obtain ⟨t, ht, h1, h2⟩ := g5 hone s ((hmem s).1 hsm)
    exact ⟨t, (hmem t).2 ht, h1, h2⟩
  obtain ⟨xs, r1, r2, -, r4, r5, r6⟩ := drop_schedule (out := out) hS hlen (fun f hff => by rw [k2 f]; exact g1 f hff) q2 (fun s hsm => g3 s ((hmem s).1 hsm)) q4 True fun _ => q5
  refine ⟨n, out, xs, by rw [hl n, k1], r1, r2, ⟨m, ?_, k3, k4⟩, r4, fun f hff => ?_, r6⟩
  · rw [hmb]
    exact g6 b (by rw [hbr]; simp)
  · rcases r5 f hff with h0 | ⟨h0 | ⟨h0, -⟩, h1⟩
    · exact .inl h0
    · exact .inr ⟨h0, h1⟩
    · exact absurd trivial h0

-- one worker: groups of two files, the third chunk of `a` dropped; two workers: `a` has no end and RuntimeError is raised when the group has been played
example : Splittable exCutTwo ∧ exCutTwo.files.Nodup ∧ (⟨2, 1, false, false, true⟩ : LoaderCfg).numWorkers ≤ 1 := ⟨⟨by decide +kernel, by decide, Or.inr (by decide)⟩, by decide, by decide⟩
example : (loader exLoadDisk ⟨2, 1, false, false, true⟩ exCutTwo [1, 0] id 20).map (fun r => (r.1.map fun b => b.map fun s => (s.id, s.eos), r.2)) =
    .ok ([[("c", false), ("a", false)], [("c", true), ("a", true)]], .returned) := by decide +kernel
example : (loader exLoadDisk ⟨2, 2, false, false, true⟩ exCutTwo [1, 0] id 20).map (fun r => (r.1.map fun b => b.map fun s => (s.id, s.eos), r.2)) =
    .ok ([[("c", false), ("a", false)], [("c", true), ("a", false)]], .raised .runtimeError) := by decide +kernel

end
end DS.Data
