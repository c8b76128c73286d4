import Verif.Proof.DyldCache
import Verif.Props.FileKind

/-! # C92: the dyld shared cache -/

namespace Obj.Props
open Obj Obj.Dyld Obj.Spec.Dyld
open Obj.Spec.Pe (CStrAt)

private theorem uuids_unique {en : Endianness} {data : List UInt8} {l l' : List (List UInt8)} (h : UuidsIn en data l) (h' : UuidsIn en data l') :
    l = l' := by
  obtain ⟨r, h1, h2⟩ := subcaches_exists h
  obtain ⟨r', h3, h4⟩ := subcaches_exists h'
  rw [h1] at h3
  injection h3 with h3
  rw [← h2, h3, h4]

/-- C92: parsing a cache never panics, and succeeds exactly if the main file and the subcaches are laid out as the format says, with the stored
values. -/
theorem C92_parse (data : List UInt8) (subs : List (List UInt8)) :
    Cache.parse data subs ≠ .panic ∧ ∀ c, Cache.parse data subs = .ok c ↔ CacheIn data subs c := by
  unfold Cache.parse
  rw [header_eq]
  by_cases hs : 552 ≤ data.length
  rotate_left
  · rw [if_neg hs]
    exact ⟨by simp, fun c => ⟨fun h => by simp at h, fun h => absurd h.size hs⟩⟩
  rw [if_pos hs, Res.ok_bind]
  cases hm : parseMagic (slice data 0 552) with
  | panic => exact absurd hm (magic_no_panic _)
  | err =>
    refine ⟨by simp, fun c => ⟨fun h => by simp at h, fun h => ?_⟩⟩
    rw [(magic_iff ..).2 h.magic] at hm
    cases hm
  | ok m =>
  obtain ⟨arch, en⟩ := m
  have hm' := (magic_iff ..).1 hm
  have hen : ∀ c, CacheIn data subs c → c.arch = arch ∧ c.en = en := fun c h => magic_unique h.magic hm'
  rw [Res.ok_bind]
  dsimp only
  cases hp : (Header.decode en (slice data 0 552)).mappings en data with
  | panic => exact absurd hp (mappings_no_panic _ _ _)
  | err =>
    refine ⟨by simp, fun c => ⟨fun h => by simp at h, fun h => ?_⟩⟩
    obtain ⟨maps, fs, uuids, h1, h2, -⟩ := h.files
    rw [(hen c h).2] at h2
    rw [(mappings_iff ..).2 h2] at hp
    cases hp
  | ok maps =>
  have hmaps : ∀ maps', MappingsIn en data maps' → maps' = maps := by
    intro maps' h
    rw [(mappings_iff ..).2 h] at hp
    injection hp
  rw [Res.ok_bind]
  cases hq : (Header.decode en (slice data 0 552)).subcaches data with
  | panic => exact absurd hq (subcaches_no_panic _ _)
  | err =>
    refine ⟨by simp, fun c => ⟨fun h => by simp at h, fun h => ?_⟩⟩
    obtain ⟨maps, fs, uuids, h1, h2, h3, -⟩ := h.files
    rw [(hen c h).2] at h3
    obtain ⟨r, h4, -⟩ := subcaches_exists h3
    rw [h4] at hq
    cases hq
  | ok info =>
  rw [Res.ok_bind]
  have hu := (subcaches_ok hq).1
  have huu : ∀ l, UuidsIn en data l → l = uuidsOf info := fun l h => uuids_unique h hu
  have hsym := symbols_eq en data hs
  have hone : (if (Header.decode en (slice data 0 552)).symbolsUuid.isSome = true then 1 else 0) = (symbolsUuid en data).length := by
    rw [← hsym]
    cases (Header.decode en (slice data 0 552)).symbolsUuid <;> rfl
  simp only [hone]
  by_cases hl : subs.length ≠ (uuidsOf info).length + (symbolsUuid en data).length
  · rw [if_pos hl]
    refine ⟨by simp, fun c => ⟨fun h => by simp at h, fun h => ?_⟩⟩
    obtain ⟨maps, fs, uuids, h1, h2, h3, h4, h5, -⟩ := h.files
    rw [(hen c h).2] at h3 h5
    rw [huu _ h3, List.length_append] at h5
    exact absurd h5 hl
  rw [if_neg hl]
  replace hl := Classical.not_not.1 hl
  -- the general part: what is read of the subcaches
  generalize hO : splitSymbols (Header.decode en (slice data 0 552)).symbolsUuid subs = O
  unfold splitSymbols at hO
  have hsplit : ∃ last rest, O = .ok (last, rest) ∧ rest.length = (uuidsOf info).length ∧
      ((last = none ∧ symbolsUuid en data = [] ∧ rest = subs) ∨ ∃ d u, last = some (d, u) ∧ symbolsUuid en data = [u] ∧ subs = rest ++ [d]) := by
    cases hy : (Header.decode en (slice data 0 552)).symbolsUuid with
    | none =>
      rw [hy] at hO hsym
      have e : symbolsUuid en data = [] := hsym.symm
      rw [e] at hl
      exact ⟨none, subs, hO.symm, by simpa using hl, .inl ⟨rfl, e, rfl⟩⟩
    | some u =>
      rw [hy] at hO hsym
      have e : symbolsUuid en data = [u] := hsym.symm
      rw [e] at hl
      simp only [List.length_cons, List.length_nil] at hl
      have hne : subs ≠ [] := by intro h; rw [h] at hl; simp at hl
      simp only [List.getLast?_eq_some_getLast hne] at hO
      refine ⟨_, _, hO.symm, by simp; omega, .inr ⟨_, u, rfl, e, (List.dropLast_concat_getLast hne).symm⟩⟩
  obtain ⟨last, rest, rfl, hrl, hlast⟩ := hsplit
  rw [Res.ok_bind]
  dsimp only
  constructor
  · refine Res.bind_no_panic (subs_no_panic _ _ _) fun fs _ => ?_
    refine Res.bind_no_panic ?_ fun _ _ => Res.bind_no_panic (images_no_panic _ _ _) fun _ _ => by simp
    unfold checkSymbols
    cases last with
    | none => simp
    | some p => exact Res.bind_no_panic (sub_no_panic _ _ _) fun _ _ => by simp
  intro c
  rw [Res.bind_eq_ok]
  constructor
  · rintro ⟨fs, h1, h2⟩
    rw [Res.bind_eq_ok] at h2
    obtain ⟨_, h3, h4⟩ := h2
    rw [Res.bind_eq_ok] at h4
    obtain ⟨images, h5, h6⟩ := h4
    injection h6 with h6
    subst h6
    obtain ⟨k1, k2⟩ := (subs_iff en rest (uuidsOf info) hrl fs).1 h1
    refine ⟨hs, hm', rfl, (images_iff ..).1 h5, maps, fs, uuidsOf info, rfl, (mappings_iff ..).1 hp, hu, k1, by rw [List.length_append]; exact hl, ?_⟩
    intro i d u hd hu'
    by_cases hi : i < (uuidsOf info).length
    · rw [List.getElem?_append_left hi] at hu'
      have hd' : rest[i]? = some d := by
        rcases hlast with ⟨-, -, h⟩ | ⟨d', u', -, -, h⟩
        · rw [h]; exact hd
        · rw [h, List.getElem?_append_left (by omega)] at hd
          exact hd
      obtain ⟨f, e1, e2⟩ := k2 i d u hd' hu'
      exact ⟨f, e1, fun _ => e2⟩
    · rw [List.getElem?_append_right (by omega)] at hu'
      rcases hlast with ⟨-, h, -⟩ | ⟨d', u', h, h', h''⟩
      · dsimp only at hu'
        rw [h] at hu'; simp at hu'
      · dsimp only at hu'
        rw [h'] at hu'
        have e0 : i - (uuidsOf info).length = 0 := by
          have := (List.getElem?_eq_some_iff.1 hu').1
          simp only [List.length_cons, List.length_nil] at this
          omega
        rw [e0] at hu'
        simp only [List.getElem?_cons_zero, Option.some.injEq] at hu'
        subst hu'
        rw [h'', List.getElem?_append_right (by omega), show i - rest.length = 0 by omega] at hd
        simp only [List.getElem?_cons_zero, Option.some.injEq] at hd
        subst hd
        rw [h] at h3
        unfold checkSymbols at h3
        simp only [] at h3
        rw [Res.bind_eq_ok] at h3
        obtain ⟨f, e1, -⟩ := h3
        exact ⟨f, (sub_iff ..).1 e1, fun hh => absurd hh hi⟩
  · intro h
    obtain ⟨e1, e2⟩ := hen c h
    obtain ⟨maps', fs, uuids, h1, h2, h3, h4, h5, h6⟩ := h.files
    rw [e2] at h2 h3 h5 h6
    have := huu _ h3
    subst this
    have := hmaps _ h2
    subst this
    refine ⟨fs, (subs_iff en rest (uuidsOf info) hrl fs).2 ⟨h4, fun i d u hd hu' => ?_⟩, ?_⟩
    · have hi : i < (uuidsOf info).length := (List.getElem?_eq_some_iff.1 hu').1
      have hd' : subs[i]? = some d := by
        rcases hlast with ⟨-, -, h⟩ | ⟨d', u', -, -, h⟩
        · rw [← h]; exact hd
        · rw [h, List.getElem?_append_left (by omega)]
          exact hd
      obtain ⟨f, k1, k2⟩ := h6 i d u hd' (by rw [List.getElem?_append_left hi]; exact hu')
      exact ⟨f, k1, k2 hi⟩
    · rw [Res.bind_eq_ok]
      refine ⟨(), ?_, ?_⟩
      · rcases hlast with ⟨h, -, -⟩ | ⟨d', u', h, h', h''⟩
        · rw [h]; rfl
        · rw [h]
          unfold checkSymbols
          simp only []
          rw [Res.bind_eq_ok]
          obtain ⟨f, k1, -⟩ := h6 (uuidsOf info).length d' u'
            (by rw [h'', List.getElem?_append_right (by omega), show (uuidsOf info).length - rest.length = 0 by omega]; rfl)
            (by rw [h', List.getElem?_append_right (by omega), Nat.sub_self]; rfl)
          exact ⟨f, (sub_iff ..).2 k1, rfl⟩
      · rw [Res.bind_eq_ok]
        have hi := h.images
        rw [e2] at hi
        refine ⟨c.images, (images_iff ..).2 hi, ?_⟩
        obtain ⟨ce, cd, cf, ci, ca⟩ := c
        simp only [] at e1 e2 h1
        have := h.main
        simp only [] at this
        rw [e1, e2, h1, this]

/-- C92: a valid cache is detected as one. -/
theorem C92_kind (data : List UInt8) (subs : List (List UInt8)) (c : Dyld.Cache) (h : CacheIn data subs c) :
    FileKind.parseAt data 0 = .ok .dyldCache := by
  rw [C41_exact]
  have hs := h.size
  refine ⟨by omega, ?_⟩
  obtain ⟨s, h1, h2⟩ := h.magic
  have key : ∀ x ∈ Spec.Dyld.magics, (x.1.toUTF8.toList ++ [0]).take 8 = "dyld_v1 ".toUTF8.toList := by decide +kernel
  have h3 := key _ h1
  have h8 : "dyld_v1 ".toUTF8.toList.length = 8 := by decide +kernel
  show slice data 0 _ = _
  rw [h8, ← h3]
  simp only []
  rw [← h2]
  unfold slice
  rw [List.take_take]
  rfl

/-! ## Suffixes -/

private theorem digits_eq (n : Nat) : (Nat.toDigits 10 n).map (fun c => UInt8.ofNat c.toNat) = Spec.ArchiveS.decimal n := by
  have hd : ∀ d, d < 10 → UInt8.ofNat (Nat.digitChar d).toNat = UInt8.ofNat (48 + d) := by decide
  induction n using Nat.strongRecOn with
  | _ n ih =>
    rw [Spec.ArchiveS.decimal]
    by_cases h : n < 10
    · rw [if_pos h, Nat.toDigits_of_lt_base h, List.map_cons, List.map_nil, hd n h]
    · rw [if_neg h, ← ih (n / 10) (by omega)]
      have e := Nat.toDigits_append_toDigits (b := 10) (n := n / 10) (d := n % 10) (by omega) (by omega) (by omega)
      rw [show 10 * (n / 10) + n % 10 = n by omega] at e
      rw [← e, List.map_append, Nat.toDigits_of_lt_base (show n % 10 < 10 by omega), List.map_cons, List.map_nil, hd _ (by omega)]

private theorem takeWhile_iff (l s : List UInt8) :
    (∃ rest, l = s ++ rest ∧ (0 : UInt8) ∉ s ∧ (rest = [] ∨ rest.head? = some 0)) ↔ s = l.takeWhile (· ≠ 0) := by
  constructor
  · rintro ⟨rest, rfl, h0, hr⟩
    rw [List.takeWhile_append_of_pos (by intro x hx; simp; rintro rfl; exact h0 hx)]
    rcases hr with rfl | hr
    · simp
    · cases rest with
      | nil => simp
      | cons a t =>
        simp only [List.head?_cons, Option.some.injEq] at hr
        subst hr
        simp
  · rintro rfl
    refine ⟨l.dropWhile (· ≠ 0), List.takeWhile_append_dropWhile.symm, ?_, ?_⟩
    · intro h
      have := List.all_takeWhile (p := fun x : UInt8 => decide (x ≠ 0)) (l := l)
      rw [List.all_eq_true] at this
      simpa using this 0 h
    · cases hd : l.dropWhile (· ≠ 0) with
      | nil => exact .inl rfl
      | cons a t =>
        right
        have := List.head?_dropWhile_not (fun x : UInt8 => decide (x ≠ 0)) l
        rw [hd] at this
        simpa using this

private theorem suffix_unique {en : Endianness} {data : List UInt8} {i : Nat} {s s' : List UInt8} (h : SuffixIn en data i s) (h' : SuffixIn en data i s') :
    s = s' := by
  unfold SuffixIn at h h'
  by_cases hb : 0x1d0 ≤ headerSize en data
  · rw [if_pos hb] at h h'
    rw [(takeWhile_iff _ _).1 h, (takeWhile_iff _ _).1 h']
  · rw [if_neg hb] at h h'
    rw [h, h']

private theorem suffixes_unique {data : List UInt8} {l l' : List (List UInt8)} (h : SuffixesIn data l) (h' : SuffixesIn data l') : l = l' := by
  obtain ⟨a, en, u, h1, h2, h3, h4⟩ := h.suffixes
  obtain ⟨a', en', u', k1, k2, k3, k4⟩ := h'.suffixes
  obtain ⟨rfl, rfl⟩ := magic_unique h1 k1
  have := uuids_unique h2 k2
  subst this
  apply List.ext_getElem?
  intro i
  by_cases hi : i < l.length
  · have e1 : l[i]? = some l[i] := List.getElem?_eq_getElem hi
    have e2 : l'[i]? = some l'[i] := List.getElem?_eq_getElem (by omega)
    have p1 := h4 i _ e1
    have p2 := k4 i _ e2
    rw [e1, e2]
    congr 1
    by_cases hu : i < u.length
    · rw [if_pos hu] at p1 p2
      exact suffix_unique p1 p2
    · rw [if_neg hu] at p1 p2
      rw [p1, p2]
  · rw [List.getElem?_eq_none (by omega), List.getElem?_eq_none (by omega)]

private theorem suffixes_exist {data : List UInt8} (hs : 552 ≤ data.length) {arch : Obj.Arch} {en : Endianness} (hm : MagicIn data arch en)
    {r : Option SubCaches} (hr : (Header.decode en (slice data 0 552)).subcaches data = .ok r) :
    ∃ l, subcacheSuffixes data = .ok l ∧ SuffixesIn data l ∧ l.length = (uuidsOf r ++ symbolsUuid en data).length := by
  obtain ⟨hu, hn, hv⟩ := subcaches_ok hr
  have hsym := symbols_eq en data hs
  have dot : ".".toUTF8.toList = [0x2e] := by decide +kernel
  have sym : ".symbols".toUTF8.toList = [0x2e, 0x73, 0x79, 0x6d, 0x62, 0x6f, 0x6c, 0x73] := by decide +kernel
  unfold subcacheSuffixes
  rw [header_eq, if_pos hs, Res.ok_bind, (magic_iff ..).2 hm, Res.ok_bind]
  dsimp only
  rw [hr, Res.ok_bind]
  cases r with
  | none =>
    have h1 := hn.1 rfl
    have e : symbolsUuid en data = [] := by
      unfold symbolsUuid
      rw [if_neg (fun h => h1 h.1)]
    refine ⟨[], rfl, ⟨hs, arch, en, [], hm, hu, by rw [e]; rfl, fun i s h => by simp at h⟩, by rw [e]; rfl⟩
  | some s =>
    dsimp only
    generalize hl : s.suffixes = l
    have hll : l.length = (uuidsOf (some s)).length ∧ ∀ i x, l[i]? = some x → SuffixIn en data i x := by
      rcases hv s rfl with ⟨h1, e, rfl, h2⟩ | ⟨h1, u, rfl⟩
      · simp only [SubCaches.suffixes] at hl
        subst hl
        refine ⟨by simp [uuidsOf, SubCaches.uuids], fun i x hx => ?_⟩
        simp only [List.getElem?_map, Option.map_eq_some_iff] at hx
        obtain ⟨y, hy, rfl⟩ := hx
        unfold SuffixIn
        rw [if_pos h1, ← h2 i y hy]
        exact (takeWhile_iff _ _).2 rfl
      · simp only [SubCaches.suffixes] at hl
        subst hl
        refine ⟨by simp [uuidsOf, SubCaches.uuids], fun i x hx => ?_⟩
        simp only [List.getElem?_map, Option.map_eq_some_iff] at hx
        obtain ⟨j, hj, rfl⟩ := hx
        obtain ⟨hj', hj⟩ := List.getElem?_eq_some_iff.1 hj
        rw [List.getElem_range] at hj
        subst hj
        unfold SuffixIn numSuffix
        rw [if_neg h1, dot, digits_eq]
        rfl
    obtain ⟨hlen, hall⟩ := hll
    refine ⟨_, rfl, ?_⟩
    rw [← hsym]
    have e2 : (if (Header.decode en (slice data 0 552)).symbolsUuid.isSome = true then l ++ [[0x2e, 0x73, 0x79, 0x6d, 0x62, 0x6f, 0x6c, 0x73]] else l) =
        l ++ (symbolsUuid en data).map fun _ => ".symbols".toUTF8.toList := by
      rw [← hsym, sym]
      cases (Header.decode en (slice data 0 552)).symbolsUuid <;> simp
    rw [e2]
    refine ⟨⟨hs, arch, en, uuidsOf (some s), hm, hu, by simp [hlen], fun i x hx => ?_⟩, by rw [hsym]; simp [hlen]⟩
    by_cases hi : i < (uuidsOf (some s)).length
    · rw [if_pos hi]
      rw [List.getElem?_append_left (by omega)] at hx
      exact hall i x hx
    · rw [if_neg hi]
      rw [List.getElem?_append_right (by omega)] at hx
      simp only [List.getElem?_map, Option.map_eq_some_iff] at hx
      obtain ⟨y, -, rfl⟩ := hx
      rfl

/-- C92: the suffixes of the files that are needed: without a panic, and exactly those of the entries in the header, and `.symbols` if there is a file
with symbols. -/
theorem C92_suffixes (data : List UInt8) :
    subcacheSuffixes data ≠ .panic ∧ ∀ l, subcacheSuffixes data = .ok l ↔ SuffixesIn data l := by
  by_cases hs : 552 ≤ data.length
  rotate_left
  · unfold subcacheSuffixes
    rw [header_eq, if_neg hs]
    exact ⟨by simp, fun l => ⟨fun h => by simp at h, fun h => absurd h.size hs⟩⟩
  cases hm : parseMagic (slice data 0 552) with
  | panic => exact absurd hm (magic_no_panic _)
  | err =>
    have e : subcacheSuffixes data = .err := by
      unfold subcacheSuffixes
      rw [header_eq, if_pos hs, Res.ok_bind, hm]; rfl
    rw [e]
    refine ⟨by simp, fun l => ⟨fun h => by simp at h, fun h => ?_⟩⟩
    obtain ⟨a, en, u, h1, -⟩ := h.suffixes
    rw [(magic_iff ..).2 h1] at hm
    cases hm
  | ok m =>
  obtain ⟨arch, en⟩ := m
  have hm' := (magic_iff ..).1 hm
  cases hq : (Header.decode en (slice data 0 552)).subcaches data with
  | panic => exact absurd hq (subcaches_no_panic _ _)
  | err =>
    have e : subcacheSuffixes data = .err := by
      unfold subcacheSuffixes
      rw [header_eq, if_pos hs, Res.ok_bind, hm, Res.ok_bind]
      dsimp only
      rw [hq]; rfl
    rw [e]
    refine ⟨by simp, fun l => ⟨fun h => by simp at h, fun h => ?_⟩⟩
    obtain ⟨a, en', u, h1, h2, -⟩ := h.suffixes
    obtain ⟨rfl, rfl⟩ := magic_unique h1 hm'
    obtain ⟨r, h3, -⟩ := subcaches_exists h2
    rw [h3] at hq
    cases hq
  | ok r =>
    obtain ⟨l, h1, h2, -⟩ := suffixes_exist hs hm' hq
    rw [h1]
    refine ⟨by simp, fun l' => ⟨fun h => ?_, fun h => ?_⟩⟩
    · injection h with h
      rw [← h]; exact h2
    · rw [suffixes_unique h2 h]

/-- C92: a cache is parsed with as many subcaches as there are suffixes. -/
theorem C92_count (data : List UInt8) (subs : List (List UInt8)) (c : Dyld.Cache) (h : Cache.parse data subs = .ok c) :
    ∃ l, subcacheSuffixes data = .ok l ∧ l.length = subs.length := by
  have hc := ((C92_parse data subs).2 c).1 h
  obtain ⟨maps, fs, uuids, -, -, h3, -, h5, -⟩ := hc.files
  obtain ⟨r, k1, k2⟩ := subcaches_exists h3
  obtain ⟨l, e1, -, e2⟩ := suffixes_exist hc.size hc.magic k1
  exact ⟨l, e1, by rw [e2, h5, k2]⟩

/-! ## Addresses -/

private theorem inFile_iff (maps : List Mapping) (a o : Nat) : addressToFileOffset maps a = some o ↔ FoundIn maps a o := by
  induction maps with
  | nil =>
    unfold addressToFileOffset FoundIn
    simp
  | cons m rest ih =>
    unfold addressToFileOffset
    have hc : m.address ≤ a ∧ a - m.address < m.size ↔ Contains m a := by unfold Contains; omega
    by_cases h : m.address ≤ a ∧ a - m.address < m.size
    · rw [if_pos h]
      constructor
      · intro hh
        by_cases h2 : m.fileOffset + (a - m.address) < U64
        · rw [if_pos h2] at hh
          injection hh with hh
          exact ⟨0, m, rfl, hc.1 h, fun j' _ hj => absurd hj (Nat.not_lt_zero _), hh.symm, by rw [← hh]; exact h2⟩
        · rw [if_neg h2] at hh; cases hh
      · rintro ⟨j, m', h1, h2, h3, h4, h5⟩
        cases j with
        | zero =>
          simp only [List.getElem?_cons_zero, Option.some.injEq] at h1
          subst h1
          rw [← h4, if_pos h5]
        | succ j => exact absurd (hc.1 h) (h3 0 m (by omega) rfl)
    · rw [if_neg h, ih]
      constructor
      · rintro ⟨j, m', h1, h2, h3, h4⟩
        refine ⟨j + 1, m', by simpa using h1, h2, fun j' m'' hj hm => ?_, h4⟩
        cases j' with
        | zero =>
          simp only [List.getElem?_cons_zero, Option.some.injEq] at hm
          subst hm
          exact fun hh => h (hc.2 hh)
        | succ j' => exact h3 j' m'' (by omega) (by simpa using hm)
      · rintro ⟨j, m', h1, h2, h3, h4⟩
        cases j with
        | zero =>
          simp only [List.getElem?_cons_zero, Option.some.injEq] at h1
          subst h1
          exact absurd (hc.2 h2) h
        | succ j =>
          refine ⟨j, m', by simpa using h1, h2, fun j' m'' hj hm => h3 (j' + 1) m'' (by omega) (by simpa using hm), h4⟩

private theorem find_iff (files : List DyldFile) (k a i o : Nat) : findAddress files k a = some (i, o) ↔
    k ≤ i ∧ ∃ f, files[i - k]? = some f ∧ FoundIn f.mappings a o ∧ ∀ (i' : Nat) f', i' < i - k → files[i']? = some f' → ¬ ∃ o', FoundIn f'.mappings a o' := by
  induction files generalizing k with
  | nil => unfold findAddress; simp
  | cons f rest ih =>
    unfold findAddress
    cases h : addressToFileOffset f.mappings a with
    | some o' =>
      have h' := (inFile_iff ..).1 h
      simp only [Option.some.injEq, Prod.mk.injEq]
      constructor
      · rintro ⟨rfl, rfl⟩
        refine ⟨Nat.le_refl _, f, by simp, h', fun i' f' hi => absurd hi (by omega)⟩
      · rintro ⟨h1, f', h2, h3, h4⟩
        by_cases he : i = k
        · subst he
          simp only [Nat.sub_self, List.getElem?_cons_zero, Option.some.injEq] at h2
          subst h2
          rw [(inFile_iff ..).2 h3] at h
          injection h with h
          exact ⟨rfl, h.symm⟩
        · exact absurd ⟨o', h'⟩ (h4 0 f (by omega) rfl)
    | none =>
      have hn : ¬ ∃ o', FoundIn f.mappings a o' := by
        rintro ⟨o', ho⟩
        rw [(inFile_iff ..).2 ho] at h
        cases h
      dsimp only
      rw [ih]
      constructor
      · rintro ⟨h1, f', h2, h3, h4⟩
        have e : i - k = i - (k + 1) + 1 := by omega
        refine ⟨by omega, f', by rw [e]; simpa using h2, h3, fun i' f'' hi hf => ?_⟩
        cases i' with
        | zero =>
          simp only [List.getElem?_cons_zero, Option.some.injEq] at hf
          subst hf
          exact hn
        | succ i' => exact h4 i' f'' (by omega) (by simpa using hf)
      · rintro ⟨h1, f', h2, h3, h4⟩
        by_cases he : i = k
        · subst he
          simp only [Nat.sub_self, List.getElem?_cons_zero, Option.some.injEq] at h2
          subst h2
          exact absurd ⟨o, h3⟩ hn
        · have e : i - k = i - (k + 1) + 1 := by omega
          rw [e] at h2
          refine ⟨by omega, f', by simpa using h2, h3, fun i' f'' hi hf => h4 (i' + 1) f'' (by omega) (by simpa using hf)⟩

/-- C92: an address is looked up in the first file that has it, at the offset that the first mapping there with the address gives. -/
theorem C92_lookup (c : Dyld.Cache) (a i o : Nat) : c.dataAndOffset a = some (i, o) ↔
    ∃ f, c.files[i]? = some f ∧ FoundIn f.mappings a o ∧ ∀ (i' : Nat) f', i' < i → c.files[i']? = some f' → ¬ ∃ o', FoundIn f'.mappings a o' := by
  unfold Cache.dataAndOffset
  rw [find_iff]
  simp only [Nat.zero_le, true_and, Nat.sub_zero]

/-- C92: an address that is in exactly one mapping, at an offset in range, is found there. -/
theorem C92_lookup_unique (c : Dyld.Cache) (a i j : Nat) (f : DyldFile) (m : Mapping) (hf : c.files[i]? = some f) (hm : f.mappings[j]? = some m)
    (hc : Contains m a) (hr : m.fileOffset + m.size ≤ 2 ^ 64)
    (hu : ∀ (i' j' : Nat) f' m', c.files[i']? = some f' → f'.mappings[j']? = some m' → Contains m' a → i' = i ∧ j' = j) :
    c.dataAndOffset a = some (i, m.fileOffset + (a - m.address)) := by
  rw [C92_lookup]
  refine ⟨f, hf, ⟨j, m, hm, hc, fun j' m' hj hm' hc' => ?_, rfl, ?_⟩, ?_⟩
  · have := (hu i j' f m' hf hm' hc').2
    omega
  · unfold Contains at hc
    omega
  · rintro i' f' hi hf' ⟨o', j', m', h1, h2, -⟩
    have := (hu i' j' f' m' hf' h1 h2).1
    omega

/-- C92: the data of a mapping is the part of its file that it describes. -/
theorem C92_mapping_data (m : Mapping) (file : List UInt8) : m.data file ≠ .panic ∧
    ∀ b, m.data file = .ok b ↔ (m.size = 0 ∨ m.fileOffset + m.size ≤ file.length) ∧ b = slice file m.fileOffset m.size := by
  unfold Mapping.data
  rw [readRef_readBytesAt_eq]
  by_cases h : m.size = 0 ∨ m.fileOffset + m.size ≤ file.length
  · rw [if_pos h]
    exact ⟨by simp, fun b => by simp [h, eq_comm]⟩
  · rw [if_neg h]
    exact ⟨by simp, fun b => by simp [h]⟩

/-- C92: the byte that an address is looked up at is the one that the data of the mapping has for the address. -/
theorem C92_lookup_data (c : Dyld.Cache) (a i o : Nat) (h : c.dataAndOffset a = some (i, o)) :
    ∃ f m, c.files[i]? = some f ∧ m ∈ f.mappings ∧ Contains m a ∧
      ∀ b, m.data f.data = .ok b → ∃ x, b[a - m.address]? = some x ∧ f.data[o]? = some x := by
  obtain ⟨f, hf, ⟨j, m, h1, h2, -, h4, -⟩, -⟩ := (C92_lookup c a i o).1 h
  refine ⟨f, m, hf, List.mem_of_getElem? h1, h2, fun b hb => ?_⟩
  obtain ⟨hr, rfl⟩ := ((C92_mapping_data m f.data).2 b).1 hb
  unfold Contains at h2
  have hlt : o < f.data.length := by omega
  refine ⟨f.data[o], ?_, List.getElem?_eq_getElem hlt⟩
  unfold slice
  rw [List.getElem?_take_of_lt (by omega), List.getElem?_drop, ← h4, List.getElem?_eq_getElem hlt]

/-- C92: the mappings of a cache are those of the main file, then those of the subcaches, each with the data of its file. -/
theorem C92_mappings (c : Dyld.Cache) : c.mappings.map (·.2) = (c.files.map (·.mappings)).flatten ∧
    ∀ d m, (d, m) ∈ c.mappings ↔ ∃ f ∈ c.files, f.data = d ∧ m ∈ f.mappings := by
  unfold Cache.mappings
  constructor
  · induction c.files with
    | nil => rfl
    | cons f rest ih => simp [ih, Function.comp_def]
  · intro d m
    simp only [List.mem_flatMap, List.mem_map, Prod.mk.injEq]
    constructor
    · rintro ⟨f, h1, m', h2, rfl, rfl⟩; exact ⟨f, h1, rfl, h2⟩
    · rintro ⟨f, h1, rfl, h2⟩; exact ⟨f, h1, m, h2, rfl, rfl⟩

/-- C92: the path of an image is the NUL-terminated string in the main file at its offset. -/
theorem C92_path (c : Dyld.Cache) (i : ImageInfo) : c.path i ≠ .panic ∧ ∀ s, c.path i = .ok s ↔ CStrAt c.data i.pathFileOffset s := by
  unfold Cache.path
  refine ⟨Obj.Cache.readBytesAtUntil_ne_panic _ _ _ _, fun s => ?_⟩
  rw [Obj.Cache.readBytesAtUntil_ok_iff]
  unfold Obj.Cache.ReadsTo CStrAt
  constructor
  · rintro ⟨h1, -, ⟨suf, h2, h3⟩, -⟩
    refine ⟨c.data.take i.pathFileOffset, suf, ?_, by simp; omega, h3⟩
    rw [List.append_assoc, ← h2, List.take_append_drop]
  · rintro ⟨pre, tl, h1, h2, h3⟩
    rw [← h2]
    rw [h1]
    refine ⟨by simp, Nat.le_refl _, ⟨tl, by simp, h3⟩, by simp⟩

/-- C92: the image is at its address. -/
theorem C92_image (c : Dyld.Cache) (i : ImageInfo) : c.imageDataAndOffset i ≠ .panic ∧
    ∀ r, c.imageDataAndOffset i = .ok r ↔ c.dataAndOffset i.address = some r := by
  unfold Cache.imageDataAndOffset
  cases c.dataAndOffset i.address with
  | none => exact ⟨by simp, fun r => by simp⟩
  | some r' => exact ⟨by simp, fun r => by simp⟩

/-! ## An example -/

private def z (n : Nat) : List UInt8 := List.replicate n 0
private def w4 (n : Nat) : List UInt8 := wr .little 4 n
private def w8 (n : Nat) : List UInt8 := wr .little 8 n

/-- A header with one mapping, one subcache and one image, and the tables. -/
private def main : List UInt8 :=
  "dyld_v1  arm64e".toUTF8.toList ++ [0] ++ w4 552 ++ z 292 ++ w4 552 ++ w4 1 ++ z 72 ++ w4 608 ++ w4 1 ++ z 48 ++ w4 664 ++ w4 1 ++ z 96 ++
  (w8 0x180000000 ++ w8 0x1000 ++ w8 0 ++ z 24 ++ w4 5 ++ w4 5) ++
  (List.replicate 16 7 ++ w8 0 ++ ".01".toUTF8.toList ++ z 29) ++
  (w8 0x180000100 ++ z 16 ++ w4 696 ++ w4 0) ++ "/a".toUTF8.toList ++ [0]

/-- A subcache with the UUID, and one mapping. -/
private def sub : List UInt8 :=
  "dyld_v1  arm64e".toUTF8.toList ++ [0] ++ w4 552 ++ z 68 ++ List.replicate 16 7 ++ z 208 ++ w4 552 ++ w4 1 ++ z 232 ++
  (w8 0x180004000 ++ w8 0x100 ++ w8 0x20 ++ z 24 ++ w4 3 ++ w4 3)

/-- The hypotheses of the theorems hold for a cache with a subcache; the addresses are found in both files. -/
example : subcacheSuffixes main = .ok [".01".toUTF8.toList] ∧ ∃ c, Cache.parse main [sub] = .ok c ∧ c.arch = .aarch64 ∧ c.files.length = 2 ∧
    c.dataAndOffset 0x180000100 = some (0, 0x100) ∧ c.dataAndOffset 0x180004010 = some (1, 0x30) ∧ c.dataAndOffset 0x180004100 = none ∧
    (c.images.map c.path = [.ok "/a".toUTF8.toList]) := by
  refine ⟨by decide +kernel, ?_⟩
  cases h : Cache.parse main [sub] with
  | ok c =>
    refine ⟨c, rfl, ?_⟩
    have key : (match Cache.parse main [sub] with
      | .ok c => decide (c.arch = .aarch64 ∧ c.files.length = 2 ∧ c.dataAndOffset 0x180000100 = some (0, 0x100) ∧
          c.dataAndOffset 0x180004010 = some (1, 0x30) ∧ c.dataAndOffset 0x180004100 = none ∧ (c.images.map c.path = [.ok "/a".toUTF8.toList]))
      | _ => false) = true := by decide +kernel
    rw [h] at key
    exact of_decide_eq_true key
  | err => exact absurd h (by decide +kernel)
  | panic => exact absurd h (by decide +kernel)

end Obj.Props
