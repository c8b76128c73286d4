import Verif.Proof.SymbolMap

/-! # C13, C14: symbol maps -/

namespace Obj.Props
open Obj Obj.SymMap Obj.Spec.SymMapS

private theorem addr_trans (a b c : Entry) (h1 : decide (a.address ≤ b.address) = true)
    (h2 : decide (b.address ≤ c.address) = true) : decide (a.address ≤ c.address) = true := by
  simp at *; omega

private theorem addr_total (a b : Entry) : (decide (a.address ≤ b.address) || decide (b.address ≤ a.address)) = true := by
  simp; omega

/-- C13: the map holds exactly the given symbols (with multiplicity), in address order; symbols with equal
addresses stay in the given order. -/
theorem C13_new (symbols : List Entry) :
    (new symbols).Perm symbols ∧ (new symbols).Pairwise (fun a b => a.address ≤ b.address) ∧
    ∀ a, (new symbols).filter (fun e => e.address = a) = symbols.filter (fun e => e.address = a) := by
  refine ⟨List.mergeSort_perm _ _, ?_, ?_⟩
  · have := List.pairwise_mergeSort (le := fun a b : Entry => decide (a.address ≤ b.address)) addr_trans addr_total symbols
    exact this.imp (fun h => by simpa using h)
  · intro a
    have hsub : (symbols.filter (fun e => e.address = a)).Sublist (new symbols) := by
      apply List.sublist_mergeSort addr_trans addr_total
      · rw [List.pairwise_iff_forall_sublist]
        intro x y hxy
        have hx : x ∈ symbols.filter (fun e => e.address = a) := hxy.subset (by simp)
        have hy : y ∈ symbols.filter (fun e => e.address = a) := hxy.subset (by simp)
        simp at hx hy ⊢; omega
      · exact List.filter_sublist
    have h1 : ((symbols.filter (fun e => e.address = a)).filter (fun e => e.address = a)).Sublist ((new symbols).filter (fun e => e.address = a)) :=
      hsub.filter _
    rw [List.filter_filter] at h1
    simp only [Bool.and_self] at h1
    have h2 : ((new symbols).filter (fun e => decide (e.address = a))).length = (symbols.filter (fun e => decide (e.address = a))).length :=
      ((List.mergeSort_perm _ _).filter _).length_eq
    exact (h1.eq_of_length h2.symm).symm

/-- C13: whatever binary search is used, the entry returned for an address is one of the symbols with the greatest
address not above it; nothing is returned exactly when every symbol lies above. -/
theorem C13_before (search : List Nat → Nat → Search) (hs : IsBinarySearch search) (symbols : List Entry) (address : Nat) :
    (∀ e, before search (new symbols) address = some e → e ∈ symbols ∧ e.address ≤ address ∧
      ∀ s ∈ symbols, s.address ≤ address → s.address ≤ e.address) ∧
    (before search (new symbols) address = none ↔ ∀ s ∈ symbols, address < s.address) := by
  obtain ⟨hp, hsorted, -⟩ := C13_new symbols
  generalize new symbols = m at *
  have hk : (m.map Entry.address).Pairwise (· ≤ ·) := by rw [List.pairwise_map]; exact hsorted
  have hb := hs (m.map Entry.address) address hk
  have hmem : ∀ s, s ∈ symbols ↔ s ∈ m := fun s => (hp.mem_iff).symm
  simp only [hmem]
  unfold before
  cases hr : search (m.map Entry.address) address with
  | found i =>
    rw [hr] at hb
    simp only [List.getElem?_map, Option.map_eq_some_iff] at hb
    obtain ⟨e, he, hea⟩ := hb
    simp only [he]
    refine ⟨?_, ?_⟩
    · intro e' he'
      simp only [Option.some.injEq] at he'
      subst he'
      exact ⟨List.mem_of_getElem? he, by omega, fun s _ h => by omega⟩
    · constructor
      · intro h; simp at h
      · intro h
        have := h e (List.mem_of_getElem? he); omega
  | missing i =>
    rw [hr] at hb
    obtain ⟨h1, h2, h3⟩ := hb
    simp only [List.length_map] at h1
    have hlt : ∀ (j : Nat) (s : Entry), m[j]? = some s → j < i → s.address < address := fun j s hj hji =>
      h2 j s.address (by simp [hj]) hji
    have hgt : ∀ (j : Nat) (s : Entry), m[j]? = some s → i ≤ j → address < s.address := fun j s hj hji =>
      h3 j s.address (by simp [hj]) hji
    by_cases h0 : i = 0
    · simp only [h0, if_true]
      refine ⟨by simp, ?_⟩
      simp only [true_iff]
      intro s hs
      obtain ⟨j, hj, rfl⟩ := List.mem_iff_getElem.1 hs
      exact hgt j _ (by simp) (by omega)
    · simp only [h0, if_false]
      have hi : i - 1 < m.length := by omega
      have hget : m[i - 1]? = some m[i - 1] := by simp
      refine ⟨?_, ?_⟩
      · intro e he
        rw [hget] at he
        simp only [Option.some.injEq] at he
        subst he
        have := hlt (i - 1) _ hget (by omega)
        refine ⟨by simp, by omega, ?_⟩
        intro s hs hle
        obtain ⟨j, hj, rfl⟩ := List.mem_iff_getElem.1 hs
        by_cases hji : j < i
        · by_cases hje : j = i - 1
          · subst hje; exact Nat.le_refl _
          · exact List.pairwise_iff_getElem.1 hsorted j (i - 1) hj hi (by omega)
        · have := hgt j _ (List.getElem?_eq_getElem hj) (by omega : i ≤ j); omega
      · rw [hget]
        simp only [reduceCtorEq, false_iff]
        intro h
        have := hlt (i - 1) _ hget (by omega)
        have := h m[i - 1] (by simp)
        omega

/-- C13: the containing lookup returns an entry exactly when it is the entry found by `before` and the address lies
within its size (size 0 meaning unbounded). -/
theorem C13_containing (search : List Nat → Nat → Search) (hs : IsBinarySearch search) (symbols : List Entry)
    (hb : ∀ s ∈ symbols, s.address < 2 ^ 64) (address : Nat) (ha : address < 2 ^ 64) (e : Entry) :
    containing search (new symbols) address = some e ↔
      before search (new symbols) address = some e ∧ e.address ≤ address ∧ (e.size = 0 ∨ address < e.address + e.size) := by
  unfold containing
  rw [Option.filter_eq_some_iff]
  have hbef := C13_before search hs symbols address
  constructor
  · rintro ⟨h1, h2⟩
    obtain ⟨h3, h4, -⟩ := hbef.1 e h1
    have := hb e h3
    refine ⟨h1, h4, ?_⟩
    simp only [Bool.or_eq_true, decide_eq_true_eq] at h2
    rcases h2 with h2 | h2
    · exact Or.inl h2
    · right
      have : (address + U64 - e.address) % U64 = address - e.address := by omega
      omega
  · rintro ⟨h1, h4, h2⟩
    obtain ⟨h3, -, -⟩ := hbef.1 e h1
    have := hb e h3
    refine ⟨h1, ?_⟩
    simp only [Bool.or_eq_true, decide_eq_true_eq]
    rcases h2 with h2 | h2
    · exact Or.inl h2
    · right
      have : (address + U64 - e.address) % U64 = address - e.address := by omega
      omega

/-- A binary search exists: counting the smaller keys. -/
private def linear (keys : List Nat) (key : Nat) : Search :=
  if key ∈ keys then .found (keys.countP (· < key)) else .missing (keys.countP (· < key))

private theorem linear_split (keys : List Nat) (key : Nat) (h : keys.Pairwise (· ≤ ·)) :
    (∀ j k, keys[j]? = some k → j < keys.countP (· < key) → k < key) ∧
    (∀ j k, keys[j]? = some k → keys.countP (· < key) ≤ j → key ≤ k) := by
  induction keys with
  | nil => simp
  | cons a keys ih =>
    obtain ⟨h1, h2⟩ := List.pairwise_cons.1 h
    obtain ⟨i1, i2⟩ := ih h2
    by_cases ha : a < key
    · have hc : (a :: keys).countP (· < key) = keys.countP (· < key) + 1 := by simp [ha]
      rw [hc]
      constructor
      · intro j k hj hlt
        cases j with
        | zero => simp at hj; omega
        | succ j => exact i1 j k (by simpa using hj) (by omega)
      · intro j k hj hle
        cases j with
        | zero => omega
        | succ j => exact i2 j k (by simpa using hj) (by omega)
    · have hc : (a :: keys).countP (· < key) = 0 := by
        rw [List.countP_eq_zero]
        intro x hx
        rcases List.mem_cons.1 hx with rfl | hx
        · simpa using ha
        · have := h1 x hx; simp; omega
      rw [hc]
      refine ⟨fun j k _ h => by omega, ?_⟩
      intro j k hj _
      have hk := List.mem_of_getElem? hj
      rcases List.mem_cons.1 hk with rfl | hk
      · omega
      · have := h1 k hk; omega

private theorem linear_ok : IsBinarySearch linear := by
  intro keys key h
  obtain ⟨h1, h2⟩ := linear_split keys key h
  unfold linear
  by_cases hm : key ∈ keys
  · rw [if_pos hm]
    obtain ⟨j, hj, rfl⟩ := List.mem_iff_getElem.1 hm
    simp only
    have hcj : keys.countP (· < keys[j]) ≤ j := by
      by_cases hc : keys.countP (· < keys[j]) ≤ j
      · exact hc
      · have := h1 j _ (List.getElem?_eq_getElem hj) (by omega); omega
    have hlen : keys.countP (· < keys[j]) < keys.length := by omega
    have hge := h2 (keys.countP (· < keys[j])) _ (List.getElem?_eq_getElem hlen) (Nat.le_refl _)
    have hle : keys[keys.countP (· < keys[j])] ≤ keys[j] := by
      by_cases he : keys.countP (· < keys[j]) = j
      · simp [he]
      · exact List.pairwise_iff_getElem.1 h _ _ hlen hj (by omega)
    rw [List.getElem?_eq_getElem hlen]
    congr 1
    omega
  · rw [if_neg hm]
    refine ⟨List.countP_le_length, h1, ?_⟩
    intro j k hj hle
    have := h2 j k hj hle
    have : k ≠ key := fun he => hm (he ▸ List.mem_of_getElem? hj)
    omega

example : ∃ search, IsBinarySearch search ∧
    containing search (new [⟨8, 2, [98]⟩, ⟨4, 0, [97]⟩]) 9 = some ⟨8, 2, [98]⟩ ∧
    containing search (new [⟨8, 2, [98]⟩, ⟨4, 0, [97]⟩]) 10 = none ∧
    containing search (new [⟨8, 2, [98]⟩, ⟨4, 0, [97]⟩]) 7 = some ⟨4, 0, [97]⟩ ∧
    before search (new [⟨8, 2, [98]⟩, ⟨4, 0, [97]⟩]) 3 = none :=
  have h : new [⟨8, 2, [98]⟩, ⟨4, 0, [97]⟩] = [⟨4, 0, [97]⟩, ⟨8, 2, [98]⟩] := by
    simp [new, List.mergeSort, List.MergeSort.Internal.splitInTwo, List.splitAt, List.splitAt.go]
  ⟨linear, linear_ok, by rw [h]; decide, by rw [h]; decide, by rw [h]; decide, by rw [h]; decide⟩

/-! ## C14 -/

/-- C14: the map built from a symbol table: addresses strictly increase; every entry is named after the best of
the candidate symbols at its address and has that symbol's size or, if unknown, the distance to the next known
address (0 if there is none); every candidate's address has an entry, except when every known address is the last
address 2^64-1 (then the map is empty). -/
theorem C14_build (symbols : List Symbol) (sections : List (Nat × Nat))
    (haddr : ∀ s ∈ symbols, s.address < 2 ^ 64) (hidx : ∀ s ∈ symbols, s.index < 2 ^ 64) :
    let m := build (some symbols) sections
    m.Pairwise (fun a b => a.address < b.address) ∧
    (∀ e ∈ m, ∃ s ∈ symbols, Candidate s ∧ s.address = e.address ∧ s.name = some e.name ∧
      (∀ t ∈ symbols, Candidate t → t.address = e.address → Better s t) ∧
      SizeIs (Known symbols sections) s e.size) ∧
    ((∃ a, Known symbols sections a ∧ a ≠ 2 ^ 64 - 1) →
      ∀ s ∈ symbols, Candidate s → ∃ e ∈ m, e.address = s.address) ∧
    ((∀ a, Known symbols sections a → a = 2 ^ 64 - 1) → m = []) := by
  intro m
  have hm : m = build (some symbols) sections := rfl
  clear_value m
  unfold build at hm
  simp only at hm
  generalize hL : (allSymbols symbols sections).mergeSort Tuple.le = L at hm
  have hLmem : ∀ t, t ∈ L ↔ t ∈ allSymbols symbols sections := by intro t; rw [← hL]; exact List.mem_mergeSort
  have hLs : L.Pairwise fun a b => a.le b = true := by
    rw [← hL]; exact List.pairwise_mergeSort Tuple.le_trans Tuple.le_total _
  have hLM : ∀ t ∈ L, t.address ≤ U64 - 1 := by
    intro t ht
    rcases (mem_allSymbols ..).1 ((hLmem t).1 ht) with ⟨s, hs, hc, n, hn, rfl⟩ | ⟨s, hs, hc, h1, h2, rfl⟩ | ⟨s, hs, rfl⟩
    · have := haddr s hs; simp only [candTuple]; omega
    · simp only [endMarker, satAdd]; omega
    · simp only [endMarker, satAdd]; omega
  obtain ⟨d1, d2, d3, d4⟩ := dedup_max L (U64 - 1) hLs hLM
  rw [guess_eq] at hm
  generalize hE : dedup (U64 - 1) L = E at *
  have hgsort : (guess' E).Pairwise fun a b => a.address < b.address := by
    have h1 : (E.map Entry.address).Pairwise (· < ·) := by rw [List.pairwise_map]; exact d1
    rw [← guess'_map_address, List.pairwise_map] at h1
    exact h1
  have hfsort := hgsort.filter (fun e => decide (e.name ≠ []))
  have hnew : m = (guess' E).filter fun e => decide (e.name ≠ []) := by
    rw [hm]
    unfold new
    apply List.mergeSort_of_pairwise
    exact hfsort.imp (fun h => by simp; omega)
  have hknown : ∀ a, Known symbols sections a ↔ ∃ t ∈ L, t.address = a := by
    intro a; rw [known_iff]; simp only [hLmem]
  have hEaddr : (∃ t ∈ L, t.address ≠ U64 - 1) → ∀ a, a ∈ E.map Entry.address ↔ Known symbols sections a := by
    intro hne a
    rw [hknown, List.mem_map]
    constructor
    · rintro ⟨e, he, rfl⟩
      obtain ⟨t, ht, rfl, -⟩ := d2 e he
      exact ⟨t, ht, rfl⟩
    · rintro ⟨t, ht, rfl⟩
      exact d3 hne t ht
  -- every entry of `E` with a non-empty name comes from the best candidate
  have hbest : ∀ e ∈ E, e.name ≠ [] → ∃ s ∈ symbols, Candidate s ∧ s.address = e.address ∧ s.name = some e.name ∧
      e.size = s.size ∧ ∀ t ∈ symbols, Candidate t → t.address = e.address → Better s t := by
    intro e he hne
    obtain ⟨t, ht, rfl, hmin⟩ := d2 e he
    rcases (mem_allSymbols ..).1 ((hLmem t).1 ht) with ⟨s, hs, hc, n, hn, rfl⟩ | ⟨s, hs, hc, h1, h2, rfl⟩ | ⟨s, hs, rfl⟩
    · refine ⟨s, hs, hc, rfl, hn, rfl, ?_⟩
      intro u hu huc hua
      obtain ⟨n', hn', -⟩ := huc.2.1
      have hle := hmin (candTuple u n') ((hLmem _).2 ((mem_allSymbols ..).2 (Or.inl ⟨u, hu, huc, n', hn', rfl⟩))) hua
      rw [Tuple.le_iff] at hle
      simp only [candTuple, Tuple.entry] at hle hua
      have hpr := priority_le_iff s u
      have hsi := hidx s hs
      have hui := hidx u hu
      unfold Better
      rw [← hpr.1, ← hpr.2]
      omega
    · exact absurd rfl hne
    · exact absurd rfl hne
  refine ⟨?_, ?_, ?_, ?_⟩
  · rw [hnew]; exact hfsort
  · intro g hg
    rw [hnew, List.mem_filter] at hg
    obtain ⟨hg, hgn⟩ := hg
    simp only [decide_eq_true_eq] at hgn
    have hEne : ∃ t ∈ L, t.address ≠ U64 - 1 := by
      by_cases h : ∃ t ∈ L, t.address ≠ U64 - 1
      · exact h
      · have : E = [] := d4 (fun t ht => by
          by_cases h' : t.address = U64 - 1
          · exact h'
          · exact absurd ⟨t, ht, h'⟩ h)
        rw [this] at hg; simp [guess'] at hg
    obtain ⟨e, he, ha, hn, hsz⟩ := guess'_mem E d1 g hg
    obtain ⟨s, hs, hc, hsa, hsn, hss, hb⟩ := hbest e he (hn ▸ hgn)
    refine ⟨s, hs, hc, by rw [ha, hsa], by rw [hn]; exact hsn, ?_, ?_⟩
    · intro t ht htc hta
      exact hb t ht htc (by rw [hta, ha])
    · unfold SizeIs
      simp only [hEaddr hEne] at hsz
      rcases hsz with ⟨h1, h2⟩ | ⟨h1, h2⟩
      · rw [if_pos (by omega)]; omega
      · rw [if_neg (by omega)]
        rcases h2 with ⟨a, k1, k2, k3, k4⟩ | ⟨k1, k2⟩
        · exact Or.inl ⟨a, k1, by omega, fun b hb hlt => k3 b hb (by omega), by omega⟩
        · exact Or.inr ⟨fun b hb => by have := k1 b hb; omega, k2⟩
  · rintro ⟨a, hka, hane⟩ s hs hc
    have hne : ∃ t ∈ L, t.address ≠ U64 - 1 := by
      obtain ⟨t, ht, rfl⟩ := (hknown a).1 hka
      exact ⟨t, ht, by simpa using hane⟩
    obtain ⟨n, hn, hnne⟩ := hc.2.1
    have hmemL : candTuple s n ∈ L := (hLmem _).2 ((mem_allSymbols ..).2 (Or.inl ⟨s, hs, hc, n, hn, rfl⟩))
    obtain ⟨e, he, hea⟩ := d3 hne (candTuple s n) hmemL
    -- the entry at this address is a candidate, not an end marker
    have hen : e.name ≠ [] := by
      obtain ⟨t, ht, rfl, hmin⟩ := d2 e he
      have hle := hmin (candTuple s n) hmemL hea.symm
      rcases (mem_allSymbols ..).1 ((hLmem t).1 ht) with ⟨u, hu, huc, n', hn', rfl⟩ | ⟨u, hu, huc, h1, h2, rfl⟩ | ⟨u, hu, rfl⟩
      · obtain ⟨n'', hn'', hne''⟩ := huc.2.1
        rw [hn'] at hn''
        simp only [Option.some.injEq] at hn''
        subst hn''
        exact hne''
      · exfalso
        rw [Tuple.le_iff] at hle
        have := priority_lt s (if s.kind = .unknown then 1 else 0) (by split <;> omega)
        simp only [endMarker, candTuple, Tuple.entry] at hle hea
        omega
      · exfalso
        rw [Tuple.le_iff] at hle
        have := priority_lt s (if s.kind = .unknown then 1 else 0) (by split <;> omega)
        simp only [endMarker, candTuple, Tuple.entry] at hle hea
        omega
    obtain ⟨g, hg, hga, hgn⟩ := guess'_complete E e he
    refine ⟨g, ?_, by rw [hga, hea]; rfl⟩
    rw [hnew, List.mem_filter]
    exact ⟨hg, by simp [hgn, hen]⟩
  · intro h
    have : E = [] := d4 (fun t ht => by
      have := h t.address ((hknown _).2 ⟨t, ht, rfl⟩)
      simpa using this)
    rw [hnew, this]; rfl

/-- C14: without any symbol table the map is empty. -/
theorem C14_no_table (sections : List (Nat × Nat)) : build none sections = [] := by
  simp [build, new]

/-- Two symbols at one address (the dynamic one wins), a symbol without size bounded by the section end. -/
example : build (some [⟨true, some [97], 0x10, 4, .text, none, .compilation, 1⟩, ⟨true, some [98], 0x10, 4, .text, none, .dynamic, 2⟩,
    ⟨true, some [99], 0x20, 0, .data, none, .linkage, 3⟩, ⟨false, some [100], 0x18, 0, .data, none, .linkage, 4⟩,
    ⟨true, some [101], 0x18, 0, .other, none, .linkage, 5⟩]) [(0x10, 0x30)] =
    [⟨0x10, 4, [98]⟩, ⟨0x20, 0x20, [99]⟩] := by
  simp [build, allSymbols, tuplesOf, priority, endMarker, satAdd, dedup, guess, guessLoop, Tuple.le,
    new, List.mergeSort, List.MergeSort.Internal.splitInTwo, List.splitAt, List.splitAt.go]

/-- The exception is real: a lone symbol at the last address is lost. -/
example : build (some [⟨true, some [97], 2 ^ 64 - 1, 1, .text, none, .dynamic, 1⟩]) [] = [] := by
  simp [build, allSymbols, tuplesOf, priority, dedup, guess, new]

end Obj.Props
