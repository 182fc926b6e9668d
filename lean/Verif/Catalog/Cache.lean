import Verif.Catalog.Search
import Mathlib.Data.List.Basic
import Mathlib.Data.List.Perm.Subperm

/-! # The caches (C319, C320) -/

namespace Verif.Catalog

/-- the state after some steps -/
def run (s : St) (ops : List Op) : St := ops.foldl step s

/-- what identifies a call: the series and the path, an empty path being none -/
def keyOf (name : String) (custom : Option String) : Key := (name, if custom = some "" then none else custom)

theorem find_some {l : List (Key × Nat)} {k : Key} {i : Nat} : find l k = some i ↔ ∃ before after, l = before ++ (k, i) :: after ∧ k ∉ before.map Prod.fst := by
  induction l with
  | nil => simp [find]
  | cons e l ih =>
    obtain ⟨k', j⟩ := e
    unfold find
    by_cases hk : k' = k
    · subst hk
      rw [if_pos rfl]
      constructor
      · intro h; cases h; exact ⟨[], l, rfl, by simp⟩
      · rintro ⟨b, a, h, hb⟩
        cases b with
        | nil => rw [List.nil_append] at h; cases h; rfl
        | cons x b => rw [List.cons_append] at h; cases h; simp at hb
    · rw [if_neg hk, ih]
      constructor
      · rintro ⟨b, a, h, hb⟩
        exact ⟨(k', j) :: b, a, by rw [h]; rfl, by simp only [List.map_cons, List.mem_cons, not_or]; exact ⟨fun h => hk h.symm, hb⟩⟩
      · rintro ⟨b, a, h, hb⟩
        cases b with
        | nil => rw [List.nil_append] at h; cases h; exact absurd rfl hk
        | cons x b =>
          rw [List.cons_append] at h
          cases h
          simp only [List.map_cons, List.mem_cons, not_or] at hb
          exact ⟨b, a, rfl, hb.2⟩

/-- the entry is in the cache, and before it only others, each once -/
def Held (k : Key) (i : Nat) (others : List Key) (s : St) : Prop :=
  ∃ before after, s.cache = before ++ (k, i) :: after ∧ (before.map Prod.fst).Nodup ∧ ∀ e ∈ before, e.1 ∈ others ∧ e.1 ≠ k

theorem held_find {k : Key} {i : Nat} {others : List Key} {s : St} (h : Held k i others s) : find s.cache k = some i := by
  obtain ⟨b, a, h1, -, h3⟩ := h
  refine find_some.2 ⟨b, a, h1, fun hm => ?_⟩
  obtain ⟨e, he, rfl⟩ := List.mem_map.1 hm
  exact (h3 e he).2 rfl

theorem loadImpl_keeps (s : St) (k : Key) : (loadImpl s k).2.cache = s.cache ∧ (loadImpl s k).2.heap = s.heap ∧ (loadImpl s k).2.world = s.world := by
  unfold loadImpl
  split
  · split <;> exact ⟨rfl, rfl, rfl⟩
  · exact ⟨rfl, rfl, rfl⟩

theorem held_loadCached {k : Key} {i : Nat} {others : List Key} (hl : others.length ≤ 31) {s : St} (h : Held k i others s) {k' : Key} (hk : k' = k ∨ k' ∈ others) :
    Held k i others (loadCached s k').2 := by
  by_cases hkk : k' = k
  · subst hkk
    unfold loadCached
    rw [held_find h]
    exact ⟨[], _, rfl, by simp, fun e he => nomatch he⟩
  · have hk := hk.resolve_left hkk
    obtain ⟨b, a, h1, h2, h3⟩ := h
    unfold loadCached
    cases hf : find s.cache k' with
    | some j =>
      dsimp only
      refine ⟨(k', j) :: b.filter (fun e => e.1 ≠ k'), a.filter (fun e => e.1 ≠ k'), ?_, ?_, ?_⟩
      · dsimp only
        rw [h1, List.filter_append, List.filter_cons, if_pos (by simpa using fun h => hkk h.symm)]
        rfl
      · rw [List.map_cons, List.nodup_cons]
        constructor
        · intro hm
          obtain ⟨e, he, hek⟩ := List.mem_map.1 hm
          have := (List.mem_filter.1 he).2
          simp only [decide_eq_true_eq] at this
          exact this hek
        · exact h2.sublist (List.filter_sublist.map _)
      · intro e he
        rcases List.mem_cons.1 he with rfl | he
        · exact ⟨hk, hkk⟩
        · exact h3 e (List.mem_of_mem_filter he)
    | none =>
      dsimp only
      obtain ⟨kc, kh, -⟩ := loadImpl_keeps s k'
      cases hr : loadImpl s k' with
      | mk r s' =>
        rw [hr] at kc kh
        dsimp only at kc kh
        cases r with
        | error e => exact ⟨b, a, by rw [← h1]; exact kc, h2, h3⟩
        | ok d =>
          dsimp only
          have hnot : k' ∉ b.map Prod.fst := by
            intro hm
            obtain ⟨e, he, hek⟩ := List.mem_map.1 hm
            have : ∀ l : List (Key × Nat), e ∈ l → find l e.1 ≠ none := by
              intro l
              induction l with
              | nil => intro h; exact nomatch h
              | cons x l ih =>
                intro hx
                obtain ⟨x1, x2⟩ := x
                unfold find
                by_cases hxe : x1 = e.1
                · rw [if_pos hxe]; exact fun h => nomatch h
                · rw [if_neg hxe]
                  rcases List.mem_cons.1 hx with rfl | hx
                  · exact absurd rfl hxe
                  · exact ih hx
            rw [← hek] at hf
            exact this s.cache (by rw [h1]; exact List.mem_append_left _ he) hf
          have hlen : (k' :: b.map Prod.fst).length ≤ others.length := by
            have hn : (k' :: b.map Prod.fst).Nodup := List.nodup_cons.2 ⟨hnot, h2⟩
            refine (List.Nodup.subperm hn ?_).length_le
            intro x hx
            rcases List.mem_cons.1 hx with rfl | hx
            · exact hk
            · obtain ⟨e, he, rfl⟩ := List.mem_map.1 hx
              exact (h3 e he).1
          rw [List.length_cons, List.length_map] at hlen
          refine ⟨(k', s'.heap.length) :: b, a.take (32 - (b.length + 2)), ?_, List.nodup_cons.2 ⟨hnot, h2⟩, ?_⟩
          · dsimp only
            rw [kc, h1]
            rw [List.take_cons (by omega), List.take_append, List.take_of_length_le (by omega), List.take_cons (by omega)]
            rw [List.cons_append, show 32 - 1 - b.length - 1 = 32 - (b.length + 2) by omega]
          · intro e he
            rcases List.mem_cons.1 he with rfl | he
            · exact ⟨hk, hkk⟩
            · exact h3 e he

theorem held_step {k : Key} {i : Nat} {others : List Key} (hl : others.length ≤ 31) {s : St} (h : Held k i others s) {op : Op} (hc : op ≠ .clear)
    (hop : ∀ name custom, op = .load name custom → keyOf name custom = k ∨ keyOf name custom ∈ others) : Held k i others (step s op) := by
  cases op with
  | clear => exact absurd rfl hc
  | world w => exact h
  | write j d => exact h
  | load name custom =>
    unfold step load
    dsimp only
    split
    · exact h
    · exact held_loadCached hl h (hop name custom rfl)

theorem held_run {k : Key} {i : Nat} {others : List Key} (hl : others.length ≤ 31) : ∀ {ops : List Op} {s : St}, Held k i others s → .clear ∉ ops →
    (∀ name custom, .load name custom ∈ ops → keyOf name custom = k ∨ keyOf name custom ∈ others) → Held k i others (run s ops) := by
  intro ops
  induction ops with
  | nil => intro s h _ _; exact h
  | cons op ops ih =>
    intro s h hc hop
    exact ih (held_step hl h (fun e => hc (e ▸ List.mem_cons_self)) fun n c e => hop n c (e ▸ List.mem_cons_self)) (fun h => hc (List.mem_cons_of_mem _ h)) fun n c h => hop n c (List.mem_cons_of_mem _ h)

theorem load_held {s s' : St} {name : String} {custom : Option String} {i : Nat} (h : load s name custom = (.ok i, s')) (others : List Key) : Held (keyOf name custom) i others s' ∧ name ∈ series := by
  unfold load at h
  split at h
  · cases h
  · rename_i hn
    refine ⟨?_, not_not.1 hn⟩
    unfold loadCached at h
    split at h
    · cases h
      exact ⟨[], _, rfl, by simp, fun e he => nomatch he⟩
    · split at h
      · cases h
      · cases h
        exact ⟨[], _, List.take_cons (by omega), by simp, fun e he => nomatch he⟩

/-- C319: until the caches are cleared, a call with the same arguments returns the same dictionary, whatever happens to the files, if the calls between have at most 31 different other arguments -/
theorem C319_same {s s' : St} {name : String} {custom : Option String} {i : Nat} (h : load s name custom = (.ok i, s')) {ops : List Op} (hc : .clear ∉ ops) {others : List Key} (hl : others.length ≤ 31)
    (hop : ∀ n c, .load n c ∈ ops → keyOf n c = keyOf name custom ∨ keyOf n c ∈ others) : ∃ s'', load (run s' ops) name custom = (.ok i, s'') := by
  obtain ⟨hh, hn⟩ := load_held h others
  have := held_find (held_run hl hh hc hop)
  unfold load
  rw [if_neg (not_not.2 hn)]
  unfold loadCached
  rw [show (name, if custom = some "" then none else custom) = keyOf name custom from rfl, this]
  exact ⟨_, rfl⟩

/-- C319: after the caches were cleared, only the files and the environment of the moment count, not what was called before -/
theorem C319_fresh (s s' : St) (h : s.world = s'.world) (name : String) (custom : Option String) : returned (clear s) name custom = returned (clear s') name custom := by
  have key : ∀ k : Key, (loadImpl (clear s) k).1 = (loadImpl (clear s') k).1 := by
    intro k
    unfold loadImpl cachedDirs clear
    dsimp only
    rw [h]
    cases k.2 with
    | none => rfl
    | some p => dsimp only; cases s'.world.custom p <;> rfl
  unfold returned load
  by_cases hn : name ∉ series
  · rw [if_pos hn, if_pos hn]
  · rw [if_neg hn, if_neg hn]
    exact (loadCached_clear s _).trans ((key _).trans (loadCached_clear s' _).symm)

/-- C319: a call that failed is not remembered: if it is repeated after the files have changed, it succeeds if the first file in the directories is valid now. The directories are those that were there before: a new one is
not seen until the caches are cleared. -/
theorem C319_failed {s s' : St} {name e : String} (hn : name ∈ series) (h : load (clear s) name none = (.error e, s')) (w : World) (d : List (String × Y)) :
    returned { s' with world := w } name none = .ok d ↔ ∃ x c, FirstWith w name (dataDirs s.world) x c ∧ Valid c d := by
  have hs : s' = { clear s with dirs := some (dataDirs s.world) } := by
    unfold load at h
    rw [if_neg (not_not.2 hn)] at h
    unfold loadCached at h
    rw [show find (clear s).cache _ = none from rfl] at h
    dsimp only at h
    split at h
    · rename_i hi
      cases h
      unfold loadImpl at hi
      simp only [reduceCtorEq, if_false, Prod.mk.injEq] at hi
      exact hi.2.symm
    · cases h
  subst hs
  rw [← firstFile_ok]
  unfold returned load
  rw [if_neg (not_not.2 hn)]
  unfold loadCached
  dsimp only [clear]
  rw [show find [] _ = none from rfl]
  simp only [reduceCtorEq, if_false, loadImpl, cachedDirs, Option.getD_some]
  cases firstFile w name (dataDirs s.world) with
  | error e => simp
  | ok d' => simp

theorem heap_load (s : St) (name : String) (custom : Option String) : s.heap <+: (load s name custom).2.heap := by
  unfold load
  split
  · exact List.prefix_rfl
  · unfold loadCached
    split
    · exact List.prefix_rfl
    · obtain ⟨-, kh, -⟩ := loadImpl_keeps s (name, if custom = some "" then none else custom)
      split
      · rename_i hr
        rw [hr] at kh
        dsimp only at kh ⊢
        rw [kh]
        exact List.prefix_rfl
      · rename_i hr
        rw [hr] at kh
        dsimp only at kh ⊢
        rw [kh]
        exact List.prefix_append _ _

theorem heap_run {i : Nat} {d : List (String × Y)} : ∀ {ops : List Op} {s : St}, s.heap[i]? = some d → (∀ d', .write i d' ∉ ops) → (run s ops).heap[i]? = some d := by
  intro ops
  induction ops with
  | nil => intro s h _; exact h
  | cons op ops ih =>
    intro s h hw
    refine ih ?_ fun d' hd => hw d' (List.mem_cons_of_mem _ hd)
    cases op with
    | clear => exact h
    | world w => exact h
    | load n c =>
      obtain ⟨t, ht⟩ := heap_load s n c
      unfold step
      rw [← ht, List.getElem?_append_left (List.getElem?_eq_some_iff.1 h).1]
      exact h
    | write j d' =>
      have : j ≠ i := fun hj => hw d' (hj ▸ List.mem_cons_self)
      unfold step
      dsimp only
      rw [List.getElem?_set_ne this]
      exact h

/-- C320 (partial): the entries of a catalog stay as they were read if no caller changes the dictionary he was given.
Missing: callers that do (`C320_alias`). -/
theorem C320_untouched_partial {s s' : St} {name : String} {custom : Option String} {i : Nat} (h : load s name custom = (.ok i, s')) {d : List (String × Y)} (hd : s'.heap[i]? = some d) {ops : List Op} (hc : .clear ∉ ops)
    {others : List Key} (hl : others.length ≤ 31) (hop : ∀ n c, .load n c ∈ ops → keyOf n c = keyOf name custom ∨ keyOf n c ∈ others) (hw : ∀ d', .write i d' ∉ ops) :
    returned (run s' ops) name custom = .ok d := by
  obtain ⟨s'', h2⟩ := C319_same h hc hl hop
  have hp := heap_load (run s' ops) name custom
  rw [h2] at hp
  obtain ⟨t, ht⟩ := hp
  have hr := heap_run hd hw
  unfold returned
  rw [h2]
  dsimp only at ht ⊢
  rw [← ht, List.getElem?_append_left (List.getElem?_eq_some_iff.1 hr).1, hr]
  rfl

/-- C320: what a caller writes into the dictionary he was given is what the next caller gets -/
theorem C320_alias {s s' : St} {name : String} {custom : Option String} {i : Nat} (h : load s name custom = (.ok i, s')) (hi : i < s'.heap.length) (d : List (String × Y)) :
    returned (run s' [.write i d]) name custom = .ok d := by
  obtain ⟨s'', h2⟩ := C319_same h (ops := [.write i d]) (by simp) (others := []) (by simp) (by simp)
  have hp := heap_load (run s' [.write i d]) name custom
  rw [h2] at hp
  obtain ⟨t, ht⟩ := hp
  have hr : (run s' [.write i d]).heap[i]? = some d := by
    unfold run step
    simp [List.getElem?_set_self hi]
  unfold returned
  rw [h2]
  dsimp only at ht ⊢
  rw [← ht, List.getElem?_append_left (List.getElem?_eq_some_iff.1 hr).1, hr]
  rfl

/-- the state before any call -/
def initial (w : World) : St := ⟨w, none, [], []⟩

/-- the hypotheses of C319 and C320 hold of the sample: the catalog is the first dictionary returned; the files then change; a call with a path fails; the call after that returns the first dictionary again -/
example : ∃ s', load (initial sample) "metric_coarse" none = (.ok 0, s') ∧ s'.heap[0]? = some [("sizes", .dict [])] ∧ 0 < s'.heap.length ∧
    .clear ∉ [Op.world { sample with file := fun _ _ => none }, Op.load "metric_fine" (some "/x")] ∧ keyOf "metric_fine" (some "/x") ∈ [("metric_fine", some "/x")] ∧
    (load (initial sample) "metric_fine" none).1 = .error "FileNotFoundError" := by
  have hd : dataDirs sample = ["/b", "/pkg"] := by set_option maxRecDepth 10000 in decide +kernel
  have hl : ∀ n, load (initial sample) n none = if n ∉ series then (.error "ValueError", initial sample) else
      match firstFile sample n ["/b", "/pkg"] with
      | .error e => (.error e, { initial sample with dirs := some ["/b", "/pkg"] })
      | .ok d => (.ok 0, ⟨sample, some ["/b", "/pkg"], [((n, none), 0)], [d]⟩) := by
    intro n
    unfold load
    split
    · rfl
    · simp only [loadCached, initial, find, loadImpl, cachedDirs, Option.getD_none, hd, reduceCtorEq, if_false]
      cases firstFile sample n ["/b", "/pkg"] <;> rfl
  have h1 : firstFile sample "metric_coarse" ["/b", "/pkg"] = .ok [("sizes", .dict [])] :=
    firstFile_ok.2 ⟨"/b", _, ⟨[], ["/pkg"], rfl, by simp, by simp [sample]⟩, rfl, ⟨.dict [], by simp [get]⟩, .inl (by simp [get])⟩
  refine ⟨⟨sample, some ["/b", "/pkg"], [(("metric_coarse", none), 0)], [[("sizes", .dict [])]]⟩, ?_, rfl, by simp, by simp, by decide, ?_⟩
  · rw [hl, if_neg (by decide), h1]
  · rw [hl, if_neg (by decide), firstFile_none (by simp [sample])]

end Verif.Catalog
