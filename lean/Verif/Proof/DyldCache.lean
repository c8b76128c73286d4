import Verif.Spec.DyldCache
import Verif.Proof.Pe
import Verif.Proof.MachoReloc
import Verif.Proof.ReadCache

/-! # Helper lemmas about the dyld cache: header and tables -/

namespace Obj.Dyld
open Obj Obj.Spec.Dyld
open Obj.Elf (readSliceAt)

theorem fieldS (en : Endianness) (data : List UInt8) (o n off w : Nat) (h : off + w ≤ n) :
    field en (slice data o n) off w = field en data (o + off) w := by
  have := slice_slice data o n off w h
  unfold field
  exact congrArg (rd en) this

theorem field0 (en : Endianness) (data : List UInt8) (n off w : Nat) (h : off + w ≤ n) :
    field en (slice data 0 n) off w = field en data off w := by
  rw [fieldS en data 0 n off w h, Nat.zero_add]

theorem field4_lt (en : Endianness) (d : List UInt8) (o : Nat) : field en d o 4 < 2 ^ 32 := field_lt en d o 4
theorem field8_lt (en : Endianness) (d : List UInt8) (o : Nat) : field en d o 8 < 2 ^ 64 := field_lt en d o 8

/-- A table that is read. -/
theorem table_iff {α : Type} (data : List UInt8) (off size count : Nat) (hs : 0 < size) (hs' : size ≤ 2 ^ 16) (hc : count < 2 ^ 32)
    (dec : List UInt8 → α) (l : List α) :
    ((readSliceAt data off size count).bind fun l => .ok (l.map dec)) = .ok l ↔
      TableIn data off size count ∧ l.length = count ∧ ∀ i x, l[i]? = some x → x = dec (slice data (off + size * i) size) := by
  have hn : count * size < U64 := by
    have : count * size ≤ 2 ^ 32 * 2 ^ 16 := Nat.mul_le_mul (by omega) hs'
    simp only [Nat.reducePow, Nat.reduceMul] at *
    omega
  have hz : count * size = 0 ↔ count = 0 := by
    rw [Nat.mul_eq_zero]; omega
  rw [Res.bind_eq_ok]
  unfold TableIn
  constructor
  · rintro ⟨imgs, h1, h2⟩
    rw [Pe.readSliceAt_iff data off size count hn, hz] at h1
    obtain ⟨h3, rfl⟩ := h1
    injection h2 with h2
    subst h2
    refine ⟨h3, by simp, fun i x h => ?_⟩
    simp only [List.map_map, List.getElem?_map, Option.map_eq_some_iff] at h
    obtain ⟨j, hj, rfl⟩ := h
    rw [List.getElem?_range] at hj
    · injection hj with hj; subst hj; rfl
    · refine Classical.byContradiction fun hn => ?_
      rw [List.getElem?_eq_none (by simpa using hn)] at hj
      cases hj
  · rintro ⟨h1, h2, h3⟩
    refine ⟨(List.range count).map fun i => slice data (off + size * i) size, ?_, ?_⟩
    · rw [Pe.readSliceAt_iff data off size count hn, hz]
      exact ⟨h1, rfl⟩
    · congr 1
      apply List.ext_getElem?
      intro i
      by_cases hi : i < count
      · have e : l[i]? = some l[i] := List.getElem?_eq_getElem (by omega)
        rw [e, h3 i _ e]
        simp [List.getElem?_range hi]
      · rw [List.getElem?_eq_none (by simp; omega), List.getElem?_eq_none (by omega)]

theorem table_no_panic {α : Type} (data : List UInt8) (off size count : Nat) (dec : List UInt8 → α) :
    ((readSliceAt data off size count).bind fun l => .ok (l.map dec)) ≠ .panic :=
  Res.bind_no_panic (readSliceAt_no_panic _ _ _ _) (fun _ _ => by simp)

theorem header_eq (data : List UInt8) : readHeader data = if 552 ≤ data.length then .ok (slice data 0 552) else .err := by
  unfold readHeader
  rw [readRef_readBytesAt_pos (by omega), Nat.zero_add]

/-- The header, by positions in the file. -/
theorem decode_eq (en : Endianness) (data : List UInt8) : Header.decode en (slice data 0 552) =
    ⟨slice data 0 16, field en data 16 4, field en data 20 4, field en data 24 4, field en data 28 4, slice data 88 16, field en data 312 4,
     field en data 316 4, field en data 392 4, field en data 396 4, slice data 400 16, field en data 448 4, field en data 452 4⟩ := by
  have hs : ∀ o n, o + n ≤ 552 → slice (slice data 0 552) o n = slice data o n := fun o n h => by
    rw [slice_slice data 0 552 o n h, Nat.zero_add]
  have hf : ∀ o w, o + w ≤ 552 → field en (slice data 0 552) o w = field en data o w := fun o w h => field0 en data 552 o w h
  unfold Header.decode
  rw [hs 0 16 (by omega), hs 88 16 (by omega), hs 400 16 (by omega), hf _ _ (by omega), hf _ _ (by omega), hf _ _ (by omega), hf _ _ (by omega),
    hf _ _ (by omega), hf _ _ (by omega), hf _ _ (by omega), hf _ _ (by omega), hf _ _ (by omega), hf _ _ (by omega)]

theorem magic_iff (data : List UInt8) (arch : Obj.Arch) (en : Endianness) :
    parseMagic (slice data 0 552) = .ok (arch, en) ↔ MagicIn data arch en := by
  have hm : Spec.Dyld.magics.map (fun x => (x.1.toUTF8.toList ++ [0], x.2)) = magics := by decide +kernel
  have hnd : (magics.map (·.1)).Nodup := by decide +kernel
  unfold parseMagic MagicIn
  rw [slice_slice data 0 552 0 16 (by omega), Nat.zero_add]
  generalize slice data 0 16 = k
  have key : ∀ (l : List (List UInt8 × Obj.Arch × Endianness)), (l.map (·.1)).Nodup → (l.lookup k = some (arch, en) ↔ (k, arch, en) ∈ l) := by
    intro l hl
    induction l with
    | nil => simp
    | cons a rest ih =>
      obtain ⟨a, v⟩ := a
      simp only [List.map_cons, List.nodup_cons] at hl
      have ih := ih hl.2
      by_cases e : k = a
      · subst e
        simp only [List.lookup_cons_self, Option.some.injEq, List.mem_cons, Prod.mk.injEq, true_and]
        constructor
        · rintro rfl; exact .inl rfl
        · rintro (h | h)
          · exact h.symm
          · exact absurd (List.mem_map_of_mem h) hl.1
      · rw [List.lookup_cons]
        have : (k == a) = false := by simp [e]
        rw [this]
        simp only [ih, List.mem_cons, Prod.mk.injEq, e, false_and, false_or]
  have h2 : magics.lookup k = some (arch, en) ↔ ∃ s, (s, arch, en) ∈ Spec.Dyld.magics ∧ k = s.toUTF8.toList ++ [0] := by
    rw [key _ hnd, ← hm, List.mem_map]
    constructor
    · rintro ⟨⟨s, v⟩, h1, h2⟩
      simp only [Prod.mk.injEq] at h2
      obtain ⟨rfl, rfl⟩ := h2
      exact ⟨s, h1, rfl⟩
    · rintro ⟨s, h1, rfl⟩
      exact ⟨_, h1, rfl⟩
  rw [← h2]
  cases magics.lookup k with
  | none => simp
  | some r => simp

theorem magic_no_panic (h : List UInt8) : parseMagic h ≠ .panic := by
  unfold parseMagic; split <;> simp

/-- The byte order and the architecture are determined. -/
theorem magic_unique {data : List UInt8} {a a' : Obj.Arch} {e e' : Endianness} (h : MagicIn data a e) (h' : MagicIn data a' e') :
    a = a' ∧ e = e' := by
  have h1 := (magic_iff data a e).2 h
  rw [(magic_iff data a' e').2 h'] at h1
  injection h1 with h1
  injection h1 with h1 h2
  exact ⟨h1.symm, h2.symm⟩

theorem mappings_iff (en : Endianness) (data : List UInt8) (l : List Mapping) :
    (Header.decode en (slice data 0 552)).mappings en data = .ok l ↔ MappingsIn en data l := by
  rw [decode_eq]
  unfold Header.mappings MappingsIn headerSize
  dsimp only
  by_cases h : 0x140 ≤ field en data 16 4
  · rw [if_pos h, if_pos h, table_iff _ _ _ _ (by omega) (by omega) (field4_lt ..)]
    have : ∀ o, Mapping.decode2 en (slice data o 56) = ⟨field en data o 8, field en data (o + 8) 8, field en data (o + 16) 8,
        field en data (o + 48) 4, field en data (o + 52) 4, some (field en data (o + 24) 8, field en data (o + 32) 8)⟩ := by
      intro o
      unfold Mapping.decode2
      rw [fieldS _ _ _ _ _ _ (by omega), fieldS _ _ _ _ _ _ (by omega), fieldS _ _ _ _ _ _ (by omega), fieldS _ _ _ _ _ _ (by omega),
        fieldS _ _ _ _ _ _ (by omega), fieldS _ _ _ _ _ _ (by omega), fieldS _ _ _ _ _ _ (by omega)]
      rfl
    simp only [this]
  · rw [if_neg h, if_neg h, table_iff _ _ _ _ (by omega) (by omega) (field4_lt ..)]
    have : ∀ o, Mapping.decode1 en (slice data o 32) = ⟨field en data o 8, field en data (o + 8) 8, field en data (o + 16) 8,
        field en data (o + 24) 4, field en data (o + 28) 4, none⟩ := by
      intro o
      unfold Mapping.decode1
      rw [fieldS _ _ _ _ _ _ (by omega), fieldS _ _ _ _ _ _ (by omega), fieldS _ _ _ _ _ _ (by omega), fieldS _ _ _ _ _ _ (by omega),
        fieldS _ _ _ _ _ _ (by omega)]
      rfl
    simp only [this]

theorem mappings_no_panic (h : Header) (en : Endianness) (data : List UInt8) : h.mappings en data ≠ .panic := by
  unfold Header.mappings
  split <;> exact table_no_panic _ _ _ _ _

theorem images_iff (en : Endianness) (data : List UInt8) (l : List ImageInfo) :
    (Header.decode en (slice data 0 552)).images en data = .ok l ↔ ImagesIn en data l := by
  rw [decode_eq]
  unfold Header.images ImagesIn headerSize
  have : ∀ o, ImageInfo.decode en (slice data o 32) = ⟨field en data o 8, field en data (o + 8) 8, field en data (o + 16) 8,
      field en data (o + 24) 4, field en data (o + 28) 4⟩ := by
    intro o
    unfold ImageInfo.decode
    rw [fieldS _ _ _ _ _ _ (by omega), fieldS _ _ _ _ _ _ (by omega), fieldS _ _ _ _ _ _ (by omega), fieldS _ _ _ _ _ _ (by omega),
      fieldS _ _ _ _ _ _ (by omega)]
    rfl
  dsimp only
  by_cases h : 0x1c8 ≤ field en data 16 4
  · simp only [if_pos h]
    rw [table_iff _ _ _ _ (by omega) (by omega) (field4_lt ..)]
    simp only [this]
  · simp only [if_neg h]
    rw [table_iff _ _ _ _ (by omega) (by omega) (field4_lt ..)]
    simp only [this]

theorem images_no_panic (h : Header) (en : Endianness) (data : List UInt8) : h.images en data ≠ .panic := by
  unfold Header.images
  split <;> exact table_no_panic _ _ _ _ _

theorem subcaches_no_panic (h : Header) (data : List UInt8) : h.subcaches data ≠ .panic := by
  unfold Header.subcaches
  (repeat' split) <;> first
    | exact Res.bind_no_panic (readSliceAt_no_panic _ _ _ _) (fun _ _ => by simp)
    | simp

theorem subcaches_ok {en : Endianness} {data : List UInt8} {r : Option SubCaches}
    (h : (Header.decode en (slice data 0 552)).subcaches data = .ok r) : UuidsIn en data (uuidsOf r) ∧
      (r = none ↔ ¬ 0x1c8 ≤ headerSize en data) ∧
      ∀ s, r = some s → (0x1d0 ≤ headerSize en data ∧ ∃ e, s = .v2 e ∧ ∀ i x, e[i]? = some x → x.2 = slice data (field en data 392 4 + 56 * i + 24) 32) ∨
        (¬ 0x1d0 ≤ headerSize en data ∧ ∃ u, s = .v1 u) := by
  rw [decode_eq] at h
  unfold Header.subcaches at h
  unfold UuidsIn entrySize headerSize
  dsimp only at h
  by_cases h1 : 0x1d0 ≤ field en data 16 4
  · rw [if_pos h1] at h
    have h2 : 0x1c8 ≤ field en data 16 4 := by omega
    rw [if_pos h2, if_pos h1]
    rw [Res.bind_eq_ok] at h
    obtain ⟨imgs, h3, h4⟩ := h
    injection h4 with h4
    subst h4
    have ht := (table_iff data (field en data 392 4) 56 (field en data 396 4) (by omega) (by omega) (field4_lt ..) (fun b => (slice b 0 16, slice b 24 32))
      (imgs.map fun b => (slice b 0 16, slice b 24 32))).1 (by rw [h3]; rfl)
    obtain ⟨k1, k2, k3⟩ := ht
    refine ⟨⟨k1, by simpa [uuidsOf, SubCaches.uuids] using k2, ?_⟩, ⟨by simp, by intro hh; exact absurd h2 hh⟩, ?_⟩
    · intro i u hu
      simp only [uuidsOf, SubCaches.uuids, List.getElem?_map, Option.map_eq_some_iff] at hu
      obtain ⟨x, ⟨y, hy, rfl⟩, rfl⟩ := hu
      have := k3 i (slice y 0 16, slice y 24 32) (by simp [hy])
      have := congrArg Prod.fst this
      simp only [] at this
      rw [this, slice_slice _ _ _ _ _ (by omega), Nat.add_zero]
    · rintro s hs
      injection hs with hs
      refine .inl ⟨h1, _, hs.symm, ?_⟩
      intro i x hx
      have := congrArg Prod.snd (k3 i x hx)
      simp only [] at this
      rw [this, slice_slice _ _ _ _ _ (by omega)]
  rw [if_neg h1] at h
  by_cases h2 : 0x1c8 ≤ field en data 16 4
  · rw [if_pos h2] at h
    rw [if_pos h2, if_neg h1]
    rw [Res.bind_eq_ok] at h
    obtain ⟨imgs, h3, h4⟩ := h
    injection h4 with h4
    subst h4
    have ht := (table_iff data (field en data 392 4) 24 (field en data 396 4) (by omega) (by omega) (field4_lt ..) (fun b => slice b 0 16)
      (imgs.map fun b => slice b 0 16)).1 (by rw [h3]; rfl)
    obtain ⟨k1, k2, k3⟩ := ht
    refine ⟨⟨k1, by simpa [uuidsOf, SubCaches.uuids] using k2, ?_⟩, ⟨by simp, by intro hh; exact absurd h2 hh⟩, ?_⟩
    · intro i u hu
      rw [k3 i u hu, slice_slice _ _ _ _ _ (by omega), Nat.add_zero]
    · rintro s hs
      injection hs with hs
      exact .inr ⟨h1, _, hs.symm⟩
  · rw [if_neg h2] at h
    injection h with h
    subst h
    rw [if_neg h2]
    exact ⟨rfl, ⟨fun _ => h2, fun _ => rfl⟩, by simp⟩

theorem subcaches_exists {en : Endianness} {data : List UInt8} {l : List (List UInt8)} (h : UuidsIn en data l) :
    ∃ r, (Header.decode en (slice data 0 552)).subcaches data = .ok r ∧ uuidsOf r = l := by
  have key : ∃ r, (Header.decode en (slice data 0 552)).subcaches data = .ok r := by
    rw [decode_eq]
    unfold UuidsIn entrySize headerSize at h
    unfold Header.subcaches
    dsimp only
    have get : ∀ w, 0 < w → w ≤ 2 ^ 16 → TableIn data (field en data 392 4) w (field en data 396 4) → ∃ imgs, readSliceAt data (field en data 392 4) w (field en data 396 4) = .ok imgs := by
      intro w hw hw' ht
      have := (table_iff data (field en data 392 4) w (field en data 396 4) hw hw' (field4_lt ..) (fun b => b)
        ((List.range (field en data 396 4)).map fun i => slice data (field en data 392 4 + w * i) w)).2 ⟨ht, by simp, by
          intro i x hx
          simp only [List.getElem?_map, Option.map_eq_some_iff] at hx
          obtain ⟨j, hj, rfl⟩ := hx
          obtain ⟨hj, rfl⟩ := List.getElem?_eq_some_iff.1 hj
          simp⟩
      rw [Res.bind_eq_ok] at this
      obtain ⟨imgs, h1, -⟩ := this
      exact ⟨imgs, h1⟩
    by_cases h1 : 0x1d0 ≤ field en data 16 4
    · rw [if_pos h1]
      rw [if_pos (by omega), if_pos h1] at h
      obtain ⟨imgs, h2⟩ := get 56 (by omega) (by omega) h.1
      rw [h2]
      exact ⟨_, rfl⟩
    rw [if_neg h1]
    by_cases h2 : 0x1c8 ≤ field en data 16 4
    · rw [if_pos h2]
      rw [if_pos h2, if_neg h1] at h
      obtain ⟨imgs, h2⟩ := get 24 (by omega) (by omega) h.1
      rw [h2]
      exact ⟨_, rfl⟩
    · rw [if_neg h2]
      exact ⟨_, rfl⟩
  obtain ⟨r, hr⟩ := key
  refine ⟨r, hr, ?_⟩
  have h' := (subcaches_ok hr).1
  unfold UuidsIn at h h'
  by_cases h2 : 0x1c8 ≤ headerSize en data
  · rw [if_pos h2] at h h'
    apply List.ext_getElem?
    intro i
    by_cases hi : i < field en data 396 4
    · have e1 : l[i]? = some l[i] := List.getElem?_eq_getElem (by omega)
      have e2 : (uuidsOf r)[i]? = some (uuidsOf r)[i] := List.getElem?_eq_getElem (by omega)
      rw [e1, e2, h.2.2 i _ e1, h'.2.2 i _ e2]
    · rw [List.getElem?_eq_none (by omega), List.getElem?_eq_none (by omega)]
  · rw [if_neg h2] at h h'
    rw [h, h']

theorem symbols_eq (en : Endianness) (data : List UInt8) (h : 552 ≤ data.length) :
    (Header.decode en (slice data 0 552)).symbolsUuid.toList = symbolsUuid en data := by
  rw [decode_eq]
  unfold Header.symbolsUuid symbolsUuid headerSize
  dsimp only
  have hl : (slice data 400 16).length = 16 := by unfold slice; simp; omega
  have hz : slice data 400 16 ≠ List.replicate 16 0 ↔ ∃ b ∈ slice data 400 16, b ≠ 0 := by
    rw [ne_eq, List.eq_replicate_iff]
    simp [hl]
  by_cases h1 : 0x1c8 ≤ field en data 16 4
  · rw [if_pos h1]
    by_cases h2 : slice data 400 16 ≠ List.replicate 16 0
    · rw [if_pos h2, if_pos ⟨h1, hz.1 h2⟩]; rfl
    · rw [if_neg h2, if_neg (fun hh => h2 (hz.2 hh.2))]; rfl
  · rw [if_neg h1, if_neg (fun hh => h1 hh.1)]; rfl

theorem sub_iff (en : Endianness) (d u : List UInt8) (f : DyldFile) : readSub en d u = .ok f ↔ SubIn en u d f := by
  unfold readSub
  rw [header_eq]
  by_cases h : 552 ≤ d.length
  rotate_left
  · rw [if_neg h]
    constructor
    · intro hh; cases hh
    · intro hh; exact absurd hh.size h
  rw [if_pos h, Res.ok_bind, slice_slice _ _ _ _ _ (by omega), Nat.zero_add]
  by_cases h2 : slice d 88 16 ≠ u
  · rw [if_pos h2]
    constructor
    · intro hh; cases hh
    · intro hh; exact absurd hh.uuid h2
  rw [if_neg h2, Res.bind_eq_ok]
  constructor
  · rintro ⟨m, h3, h4⟩
    injection h4 with h4
    subst h4
    exact ⟨h, Classical.not_not.1 h2, rfl, (mappings_iff ..).1 h3⟩
  · rintro ⟨_, _, h5, h6⟩
    refine ⟨f.mappings, (mappings_iff ..).2 h6, ?_⟩
    subst h5
    rfl

theorem sub_no_panic (en : Endianness) (d u : List UInt8) : readSub en d u ≠ .panic := by
  unfold readSub
  rw [header_eq]
  refine Res.bind_no_panic (by split <;> simp) fun b _ => ?_
  split
  · simp
  · exact Res.bind_no_panic (mappings_no_panic _ _ _) (fun _ _ => by simp)

theorem subs_iff (en : Endianness) (ds us : List (List UInt8)) (hl : ds.length = us.length) (fs : List DyldFile) :
    readSubs en ds us = .ok fs ↔ fs.length = us.length ∧ ∀ (i : Nat) d u, ds[i]? = some d → us[i]? = some u → ∃ f, SubIn en u d f ∧ fs[i]? = some f := by
  induction ds generalizing us fs with
  | nil =>
    cases us with
    | cons => simp at hl
    | nil =>
      unfold readSubs
      simp [eq_comm]
  | cons d ds ih =>
    cases us with
    | nil => simp at hl
    | cons u us =>
      simp only [List.length_cons, Nat.add_right_cancel_iff] at hl
      unfold readSubs
      rw [Res.bind_eq_ok]
      constructor
      · rintro ⟨f, h1, h2⟩
        rw [Res.bind_eq_ok] at h2
        obtain ⟨fs', h3, h4⟩ := h2
        injection h4 with h4
        subst h4
        obtain ⟨k1, k2⟩ := (ih us hl fs').1 h3
        refine ⟨by simp [k1], fun i d' u' hd hu => ?_⟩
        cases i with
        | zero =>
          simp only [List.getElem?_cons_zero, Option.some.injEq] at hd hu
          subst hd hu
          exact ⟨f, (sub_iff ..).1 h1, rfl⟩
        | succ i =>
          simp only [List.getElem?_cons_succ] at hd hu
          obtain ⟨f', k3, k4⟩ := k2 i d' u' hd hu
          exact ⟨f', k3, by simpa using k4⟩
      · rintro ⟨h1, h2⟩
        cases fs with
        | nil => simp at h1
        | cons f fs =>
          obtain ⟨f', k1, k2⟩ := h2 0 d u rfl rfl
          simp only [List.getElem?_cons_zero, Option.some.injEq] at k2
          subst k2
          refine ⟨f, (sub_iff ..).2 k1, ?_⟩
          rw [Res.bind_eq_ok]
          refine ⟨fs, (ih us hl fs).2 ⟨by simpa using h1, fun i d' u' hd hu => ?_⟩, rfl⟩
          obtain ⟨f', k3, k4⟩ := h2 (i + 1) d' u' (by simpa using hd) (by simpa using hu)
          exact ⟨f', k3, by simpa using k4⟩

theorem subs_no_panic (en : Endianness) (ds us : List (List UInt8)) : readSubs en ds us ≠ .panic := by
  induction ds generalizing us with
  | nil => simp [readSubs]
  | cons d ds ih =>
    cases us with
    | nil => simp [readSubs]
    | cons u us =>
      unfold readSubs
      exact Res.bind_no_panic (sub_no_panic _ _ _) fun _ _ => Res.bind_no_panic (ih us) fun _ _ => by simp

end Obj.Dyld
