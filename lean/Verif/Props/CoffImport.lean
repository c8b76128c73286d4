import Verif.Spec.CoffImport
import Verif.Proof.Pe
import Verif.Proof.Util
import Verif.Proof.MachoReloc
import Verif.Model.MachoReloc
import Verif.Props.FileKind

/-! # C78: COFF short import files -/

namespace Obj.Props
open Obj Obj.Spec Obj.CoffImport Obj.Spec.CoffImportS

private theorem field_slice (data : List UInt8) (o n off w : Nat) (h : off + w ≤ n) :
    field .little (slice data o n) off w = field .little data (o + off) w := by
  have := slice_slice data o n off w h
  unfold field
  exact congrArg (rd .little) this

private theorem decode_header (data : List UInt8) : Header.decode (slice data 0 20) =
    ⟨field .little data 0 2, field .little data 2 2, field .little data 4 2, field .little data 6 2, field .little data 8 4, field .little data 12 4,
      field .little data 16 2, field .little data 18 2⟩ := by
  have hf : ∀ off w, off + w ≤ 20 → field .little (slice data 0 20) off w = field .little data off w := by
    intro off w h
    rw [field_slice data 0 20 off w h, Nat.zero_add]
  have e : ∀ img, Header.decode img = ⟨field .little img 0 2, field .little img 2 2, field .little img 4 2, field .little img 6 2, field .little img 8 4,
      field .little img 12 4, field .little img 16 2, field .little img 18 2⟩ := by
    intro img
    simp [Header.decode, Obj.decode, field, List.drop_drop]
  rw [e, hf 0 2 (by decide), hf 2 2 (by decide), hf 4 2 (by decide), hf 6 2 (by decide), hf 8 4 (by decide), hf 12 4 (by decide), hf 16 2 (by decide),
    hf 18 2 (by decide)]

private theorem and3 (n : Nat) : n &&& 3 = n % 4 := Nat.and_two_pow_sub_one_eq_mod n 2
private theorem and7 (n : Nat) : (n >>> 2) &&& 7 = n / 4 % 8 := by
  rw [Nat.shiftRight_eq_div_pow]; exact Nat.and_two_pow_sub_one_eq_mod _ 3

private theorem stripped_iff (s t : List UInt8) : Stripped s t ↔ t = stripPrefix s := by
  have hm : ∀ c : UInt8, c ∈ "?@_".toUTF8.toList ↔ c = 0x3f ∨ c = 0x40 ∨ c = 0x5f := by
    have e : "?@_".toUTF8.toList = [0x3f, 0x40, 0x5f] := by decide +kernel
    rw [e]; simp
  constructor
  · intro h
    cases h with
    | prefixed h => simp only [stripPrefix, if_pos ((hm _).1 h)]
    | plain h =>
      cases s with
      | nil => rfl
      | cons c s => simp only [stripPrefix]; rw [if_neg (fun x => h c rfl ((hm c).2 x))]
  · rintro rfl
    cases s with
    | nil => exact .plain (by simp)
    | cons c s =>
      simp only [stripPrefix]
      by_cases h : c = 0x3f ∨ c = 0x40 ∨ c = 0x5f
      · rw [if_pos h]; exact .prefixed ((hm c).2 h)
      · rw [if_neg h]; refine .plain ?_
        intro d hd
        simp at hd
        subst hd
        exact fun x => h ((hm _).1 x)

private theorem upToAt_iff (s t : List UInt8) : UpToAt s t ↔ t = beforeAt s := by
  unfold UpToAt beforeAt
  induction s generalizing t with
  | nil =>
    constructor
    · rintro ⟨-, h | ⟨u, h⟩⟩
      · exact h.symm
      · cases t <;> simp at h
    · rintro rfl; exact ⟨by simp, .inl rfl⟩
  | cons c s ih =>
    by_cases hc : c = 0x40
    · subst hc
      simp only [List.takeWhile_cons, bne_self_eq_false, Bool.false_eq_true, if_false]
      constructor
      · rintro ⟨h1, h | ⟨u, h⟩⟩
        · subst h; simp at h1
        · cases t with
          | nil => rfl
          | cons d t => simp at h; obtain ⟨rfl, _⟩ := h; simp at h1
      · rintro rfl; exact ⟨by simp, .inr ⟨s, rfl⟩⟩
    · simp only [List.takeWhile_cons, bne_iff_ne, ne_eq, hc, not_false_eq_true, if_true]
      constructor
      · rintro ⟨h1, h⟩
        cases t with
        | nil =>
          rcases h with h | ⟨u, h⟩
          · simp at h
          · simp at h; exact absurd h.1 hc
        | cons d t =>
          have hd : d = c := by
            rcases h with h | ⟨u, h⟩
            · simp at h; exact h.1.symm
            · simp at h; exact h.1.symm
          subst hd
          rw [(ih t).1 ⟨fun x => h1 (by simp [x]), ?_⟩]
          rcases h with h | ⟨u, h⟩
          · simp at h; exact .inl h
          · simp at h; exact .inr ⟨u, h⟩
      · rintro rfl
        obtain ⟨h1, h2⟩ := (ih _).2 rfl
        refine ⟨?_, ?_⟩
        · simp only [List.mem_cons, not_or]; exact ⟨fun x => hc x.symm, h1⟩
        · rcases h2 with h | ⟨u, h⟩
          · left; exact congrArg (c :: ·) h
          · right; exact ⟨u, congrArg (c :: ·) h⟩

private theorem kindOf_iff (t : Nat) (k : Kind) : kindOf t = .ok k ↔ t = kindNumber k := by
  unfold kindOf
  by_cases h0 : t = 0
  · subst h0; cases k <;> simp [kindNumber]
  rw [if_neg h0]
  by_cases h1 : t = 1
  · subst h1; cases k <;> simp [kindNumber]
  rw [if_neg h1]
  by_cases h2 : t = 2
  · subst h2; cases k <;> simp [kindNumber]
  rw [if_neg h2]
  cases k <;> simp [kindNumber, h0, h1, h2]

private theorem nameOf_iff (t ordinal : Nat) (s : Strings) (hs : t = 4 → s.exportName ≠ none) (n : Option (List UInt8)) :
    nameOf t s = .ok n ↔ Imports ordinal s.symbol s.exportName t (match n with | some x => .name x | none => .ordinal ordinal) := by
  unfold nameOf
  by_cases h0 : t = 0
  · subst h0
    rw [if_pos rfl, Res.ok.injEq]
    constructor
    · rintro rfl; exact .ordinal
    · intro h; cases n with
      | none => rfl
      | some x => cases h
  rw [if_neg h0]
  by_cases h1 : t = 1
  · subst h1
    rw [if_pos rfl, Res.ok.injEq]
    constructor
    · rintro rfl; exact .name
    · intro h; cases n with
      | none => cases h
      | some x => cases h; rfl
  rw [if_neg h1]
  by_cases h2 : t = 2
  · subst h2
    rw [if_pos rfl, Res.ok.injEq]
    constructor
    · rintro rfl; exact .noPrefix ((stripped_iff _ _).2 rfl)
    · intro h; cases n with
      | none => cases h
      | some x => cases h with | noPrefix h => rw [(stripped_iff _ _).1 h]
  rw [if_neg h2]
  by_cases h3 : t = 3
  · subst h3
    rw [if_pos rfl, Res.ok.injEq]
    constructor
    · rintro rfl; exact .undecorated ((stripped_iff _ _).2 rfl) ((upToAt_iff _ _).2 rfl)
    · intro h; cases n with
      | none => cases h
      | some x => cases h with | undecorated h g => rw [(upToAt_iff _ _).1 g, (stripped_iff _ _).1 h]
  rw [if_neg h3]
  by_cases h4 : t = 4
  · subst h4
    rw [if_pos rfl, Res.ok.injEq]
    constructor
    · rintro rfl
      cases h : s.exportName with
      | none => exact absurd h (hs rfl)
      | some x => exact .exportAs rfl
    · intro h; cases n with
      | none => cases h
      | some x => cases h with | exportAs h => exact h
  rw [if_neg h4]
  simp only [reduceCtorEq, false_iff]
  intro h
  cases n <;> cases h <;> omega

private theorem readString_split {l s tl : List UInt8} (h : Bytes.readString l = (.ok s, tl)) : l = s ++ 0 :: tl ∧ (0 : UInt8) ∉ s := by
  rcases readString_cases l with ⟨s', tl', h1, h2, h3⟩ | ⟨h1, h2⟩
  · rw [h3] at h
    simp only [Prod.mk.injEq, Res.ok.injEq] at h
    obtain ⟨rfl, rfl⟩ := h
    exact ⟨h1, h2⟩
  · rw [h2] at h; simp at h

private theorem readString_fst {l s : List UInt8} (h : (Bytes.readString l).1 = .ok s) : l = s ++ 0 :: (Bytes.readString l).2 ∧ (0 : UInt8) ∉ s :=
  readString_split (Prod.ext h rfl)

/-- The strings that `parse_data` finds. -/
private structure StringsIn (nameType : Nat) (bytes : List UInt8) (s : Strings) : Prop where
  symbol : (0 : UInt8) ∉ s.symbol
  dll : (0 : UInt8) ∉ s.dll
  all : ∃ rest, bytes = s.symbol ++ [0] ++ s.dll ++ [0] ++ rest ∧
    (nameType = 4 → ∃ e tl, s.exportName = some e ∧ (0 : UInt8) ∉ e ∧ rest = e ++ 0 :: tl) ∧ (nameType ≠ 4 → s.exportName = none)

private theorem parseData_iff (h : Header) (data : List UInt8) (hsz : 20 + h.sizeOfData ≤ data.length ∨ h.sizeOfData = 0) (s : Strings) :
    h.parseData data = .ok s ↔ StringsIn h.importNameType (slice data 20 h.sizeOfData) s := by
  unfold Header.parseData
  rw [readRef_readBytesAt_eq, if_pos (by omega), Res.ok_bind]
  generalize slice data 20 h.sizeOfData = bytes
  constructor
  · intro e
    rw [Res.bind_eq_ok] at e
    obtain ⟨sym, e1, e⟩ := e
    rw [Res.bind_eq_ok] at e
    obtain ⟨dll, e2, e⟩ := e
    rw [Res.bind_eq_ok] at e
    obtain ⟨x, e3, e⟩ := e
    simp only [Res.ok.injEq] at e
    subst e
    obtain ⟨a1, a2⟩ := readString_fst e1
    obtain ⟨b1, b2⟩ := readString_fst e2
    refine ⟨a2, b2, (Bytes.readString (Bytes.readString bytes).2).2, ?_, ?_, ?_⟩
    · rw [List.append_assoc, List.append_assoc, List.append_assoc]
      simp only [List.cons_append, List.nil_append]
      rw [← b1, ← a1]
    · intro h4
      unfold exportString at e3
      rw [if_pos h4, Res.bind_eq_ok] at e3
      obtain ⟨t, e4, e5⟩ := e3
      simp only [Res.ok.injEq] at e5
      obtain ⟨c1, c2⟩ := readString_fst e4
      exact ⟨t, _, e5.symm, c2, c1⟩
    · intro h4
      unfold exportString at e3
      rw [if_neg h4] at e3
      simpa using e3.symm
  · rintro ⟨h1, h2, rest, h3, h4, h5⟩
    have e : bytes = s.symbol ++ 0 :: (s.dll ++ 0 :: rest) := by rw [h3]; simp
    rw [e, readString_append h1]
    simp only [Res.ok_bind]
    rw [readString_append h2]
    simp only [Res.ok_bind]
    unfold exportString
    by_cases h : h.importNameType = 4
    · obtain ⟨t, tl, g1, g2, g3⟩ := h4 h
      rw [if_pos h, g3, readString_append g2]
      simp only [Res.ok_bind]
      rw [← g1]
    · rw [if_neg h]
      simp only [Res.ok_bind]
      rw [← h5 h]

/-- **C78.** Parsing an import file never panics, and succeeds exactly if the header is valid and its strings are in the data, with the
symbol, the DLL, the kind and what is imported as the name type says. -/
theorem C78_parse (data : List UInt8) : File.parse data ≠ .panic ∧ ∀ f, File.parse data = .ok f ↔ FileIn data f := by
  constructor
  · unfold File.parse
    refine Res.bind_no_panic ?_ fun h _ => Res.bind_no_panic ?_ fun s _ => Res.bind_no_panic ?_ fun k _ => Res.bind_no_panic ?_ (by simp)
    · unfold Header.parse
      refine Res.bind_no_panic (readRef_readBytesAt_no_panic _ _ _) fun a _ => ?_
      split
      · simp
      · split <;> simp
    · unfold Header.parseData
      have hs : ∀ l, (Bytes.readString l).1 ≠ .panic := by
        intro l
        rcases readString_cases l with ⟨s', tl', h1, h2, h3⟩ | ⟨h1, h2⟩
        · rw [h3]; simp
        · rw [h2]; simp
      refine Res.bind_no_panic (readRef_readBytesAt_no_panic _ _ _) fun a _ => Res.bind_no_panic (hs _) fun _ _ =>
        Res.bind_no_panic (hs _) fun _ _ => Res.bind_no_panic ?_ (by simp)
      unfold exportString
      split
      · exact Res.bind_no_panic (hs _) (by simp)
      · simp
    · unfold kindOf; repeat' split
      all_goals simp
    · unfold nameOf; repeat' split
      all_goals simp
  · intro f
    have hH : ∀ h, Header.parse data = .ok h ↔ 20 ≤ data.length ∧ field .little data 0 2 = 0 ∧ field .little data 2 2 = 0xffff ∧
        field .little data 4 2 = 0 ∧ h = ⟨0, 0xffff, 0, field .little data 6 2, field .little data 8 4, field .little data 12 4,
          field .little data 16 2, field .little data 18 2⟩ := by
      intro h
      unfold Header.parse
      rw [readRef_readBytesAt_eq]
      by_cases c : 20 ≤ data.length
      · rw [if_pos (by omega), Res.ok_bind, decode_header]
        dsimp only
        by_cases c1 : field .little data 0 2 = 0
        · by_cases c2 : field .little data 2 2 = 0xffff
          · rw [if_neg (by omega)]
            by_cases c3 : field .little data 4 2 = 0
            · rw [if_neg (by omega), c1, c2, c3]
              simp [c, eq_comm]
            · rw [if_pos c3]; simp [c3]
          · rw [if_pos (.inr c2)]; simp [c2]
        · rw [if_pos (.inl c1)]; simp [c1]
      · rw [if_neg (by omega)]; simp [c]
    unfold File.parse
    constructor
    · intro e
      obtain ⟨h, e1, e⟩ := (Res.bind_eq_ok ..).1 e
      obtain ⟨s, e2, e⟩ := (Res.bind_eq_ok ..).1 e
      obtain ⟨k, e3, e⟩ := (Res.bind_eq_ok ..).1 e
      obtain ⟨n, e4, e⟩ := (Res.bind_eq_ok ..).1 e
      simp only [Res.ok.injEq] at e
      obtain ⟨c, c1, c2, c3, c4⟩ := (hH h).1 e1
      have hin : 20 + h.sizeOfData ≤ data.length := by
        unfold Header.parseData at e2
        obtain ⟨b, e5, e2⟩ := (Res.bind_eq_ok ..).1 e2
        rw [readRef_readBytesAt_eq] at e5
        by_cases x : 20 + h.sizeOfData ≤ data.length
        · exact x
        · by_cases y : h.sizeOfData = 0
          · omega
          · rw [if_neg (by omega)] at e5; simp at e5
      have hs := (parseData_iff h data (.inl hin) s).1 e2
      have hk := (kindOf_iff _ _).1 e3
      have ht : h.importNameType = field .little data 18 2 / 4 % 8 := by
        subst c4; exact and7 _
      have hty : h.importType = field .little data 18 2 % 4 := by
        subst c4; exact and3 _
      obtain ⟨s1, s2, rest, s3, s4, s5⟩ := hs
      have hn := (nameOf_iff h.importNameType (field .little data 16 2) s (fun x => by obtain ⟨e, _, g, _⟩ := s4 x; rw [g]; simp) n).1 e4
      subst e
      rw [ht] at s4 hn
      have hz : h.sizeOfData = field .little data 12 4 := by subst c4; rfl
      have ho : h.ordinalOrHint = field .little data 16 2 := by subst c4; rfl
      rw [hz] at hin s3
      refine ⟨hin, c1, c2, c3, c4, ?_, s.exportName, rest, s1, s2, s3, s4, ?_⟩
      · rw [← hty]; exact hk
      · unfold File.importName
        dsimp only
        rw [ho]
        exact hn
    · rintro ⟨h1, h2, h3, h4, h5, h6, x, rest, g1, g2, g3, g4, g5⟩
      obtain ⟨fh, fk, fd, fs, fn⟩ := f
      dsimp only at h5 h6 g1 g2 g3 g5
      rw [(hH fh).2 ⟨by omega, h2, h3, h4, h5⟩, Res.ok_bind]
      have ht : fh.importNameType = field .little data 18 2 / 4 % 8 := by
        subst h5; exact and7 _
      have hty : fh.importType = field .little data 18 2 % 4 := by
        subst h5; exact and3 _
      have hz : fh.sizeOfData = field .little data 12 4 := by subst h5; rfl
      have ho : fh.ordinalOrHint = field .little data 16 2 := by subst h5; rfl
      have hstr : fh.parseData data = .ok ⟨fs, fd, if fh.importNameType = 4 then x else none⟩ := by
        rw [parseData_iff _ _ (.inl (by rw [hz]; exact h1))]
        refine ⟨g1, g2, rest, ?_, ?_, ?_⟩
        · rw [hz]; exact g3
        · intro y
          rw [ht] at y
          obtain ⟨s, tl, a, b, c⟩ := g4 y
          exact ⟨s, tl, by dsimp only; rw [ht, if_pos y, a], b, c⟩
        · intro y; dsimp only; rw [if_neg y]
      rw [hstr, Res.ok_bind, (kindOf_iff _ fk).2 (by rw [hty]; exact h6), Res.ok_bind]
      have hn : nameOf fh.importNameType ⟨fs, fd, if fh.importNameType = 4 then x else none⟩ = .ok fn := by
        rw [nameOf_iff _ (field .little data 16 2)]
        · unfold File.importName at g5
          dsimp only at g5 ⊢
          rw [ho, ← ht] at g5
          by_cases y : fh.importNameType = 4
          · rw [if_pos y]; exact g5
          · rw [if_neg y]
            revert g5 y
            generalize fh.importNameType = t
            intro g5 y
            cases fn with
            | none => cases g5; exact .ordinal
            | some z =>
              dsimp only at g5 ⊢
              cases g5 with
              | name => exact .name
              | noPrefix h => exact .noPrefix h
              | undecorated h h' => exact .undecorated h h'
              | exportAs => exact absurd rfl y
        · intro y; dsimp only; rw [if_pos y]
          rw [ht] at y
          obtain ⟨s, tl, a, b, c⟩ := g4 y
          rw [a]; simp
      rw [hn, Res.ok_bind]

/-- **C78.** Reading the bytes of an import file gives back its symbol, DLL, machine, kind and what is imported. -/
theorem C78_round_trip (machine time ordinal : Nat) (kind : Kind) (nameType : Nat) (symbol dll explicit tail : List UInt8) (what : Name)
    (hm : machine < 2 ^ 16) (ht : time < 2 ^ 32) (ho : ordinal < 2 ^ 16)
    (hl : (symbol.length + 1 + (dll.length + 1) + (explicit.length + 1)) < 2 ^ 32)
    (hs : (0 : UInt8) ∉ symbol) (hd : (0 : UInt8) ∉ dll) (he : (0 : UInt8) ∉ explicit)
    (hi : Imports ordinal symbol (some explicit) nameType what) :
    ∃ f, File.parse (image machine time ordinal (kindNumber kind) nameType symbol dll explicit ++ tail) = .ok f ∧
      f.symbol = symbol ∧ f.dll = dll ∧ f.kind = kind ∧ f.importName = what ∧ f.header.machine = machine ∧ f.header.timeDateStamp = time ∧
      f.header.ordinalOrHint = ordinal := by
  have hn : nameType ≤ 4 := by cases hi <;> omega
  have hk : kindNumber kind < 3 := by cases kind <;> decide
  generalize hD : image machine time ordinal (kindNumber kind) nameType symbol dll explicit ++ tail = data
  generalize hS : symbol ++ [0] ++ dll ++ [0] ++ (if nameType = 4 then explicit ++ [0] else []) = strings
  have hlen : strings.length < 256 ^ 4 := by
    rw [← hS]; split <;> simp <;> omega
  have hD' : data = encode .little [(2, 0), (2, 0xffff), (2, 0), (2, machine), (4, time), (4, strings.length), (2, ordinal),
      (2, kindNumber kind + 4 * nameType)] ++ (strings ++ tail) := by
    rw [← hD]; unfold image; dsimp only; rw [hS]; simp [encode, List.append_assoc]
  have b1 : machine < 256 ^ 2 := hm
  have b2 : time < 256 ^ 4 := ht
  have b3 : ordinal < 256 ^ 2 := ho
  have b4 : kindNumber kind + 4 * nameType < 256 ^ 2 := by
    have : (256 : Nat) ^ 2 = 65536 := by decide
    omega
  have b5 : (0 : Nat) < 256 ^ 2 := by decide
  have b6 : (0xffff : Nat) < 256 ^ 2 := by decide
  have f0 : field .little data 0 2 = 0 := by
    rw [hD']; simp (discharger := first | assumption | decide) only [field_encode_succ, field_encode_zero, Nat.reduceSub]
  have f1 : field .little data 2 2 = 0xffff := by
    rw [hD']; simp (discharger := first | assumption | decide) only [field_encode_succ, field_encode_zero, Nat.reduceSub]
  have f2 : field .little data 4 2 = 0 := by
    rw [hD']; simp (discharger := first | assumption | decide) only [field_encode_succ, field_encode_zero, Nat.reduceSub]
  have f3 : field .little data 6 2 = machine := by
    rw [hD']; simp (discharger := first | assumption | decide) only [field_encode_succ, field_encode_zero, Nat.reduceSub]
  have f4 : field .little data 8 4 = time := by
    rw [hD']; simp (discharger := first | assumption | decide) only [field_encode_succ, field_encode_zero, Nat.reduceSub]
  have f5 : field .little data 12 4 = strings.length := by
    rw [hD']; simp (discharger := first | assumption | decide) only [field_encode_succ, field_encode_zero, Nat.reduceSub]
  have f6 : field .little data 16 2 = ordinal := by
    rw [hD']; simp (discharger := first | assumption | decide) only [field_encode_succ, field_encode_zero, Nat.reduceSub]
  have f7 : field .little data 18 2 = kindNumber kind + 4 * nameType := by
    rw [hD']; simp (discharger := first | assumption | decide) only [field_encode_succ, field_encode_zero, Nat.reduceSub]
  have hel : (encode .little [(2, 0), (2, 0xffff), (2, 0), (2, machine), (4, time), (4, strings.length), (2, ordinal),
      (2, kindNumber kind + 4 * nameType)]).length = 20 := by simp [length_encode]
  have hsl : slice data 20 strings.length = strings := by
    rw [hD']; unfold slice
    rw [List.drop_left' hel, List.take_left' rfl]
  have q1 : (kindNumber kind + 4 * nameType) % 4 = kindNumber kind := by omega
  have q2 : (kindNumber kind + 4 * nameType) / 4 % 8 = nameType := by omega
  refine ⟨⟨⟨0, 0xffff, 0, machine, time, strings.length, ordinal, kindNumber kind + 4 * nameType⟩, kind, dll, symbol,
    match what with | .name n => some n | .ordinal _ => none⟩, ?_, rfl, rfl, rfl, ?_, rfl, rfl, rfl⟩
  · rw [(C78_parse data).2]
    refine ⟨?_, f0, f1, f2, ?_, ?_, some explicit, if nameType = 4 then explicit ++ [0] else [], hs, hd, ?_, ?_, ?_⟩
    · rw [f5, hD', List.length_append, hel, List.length_append]; omega
    · rw [f3, f4, f5, f6, f7]
    · rw [f7]; exact q1
    · rw [f5, hsl, ← hS]
    · rw [f7, q2]
      intro h
      exact ⟨explicit, [], rfl, he, by rw [if_pos h]⟩
    · rw [f7, q2, f6]
      unfold File.importName
      cases what with
      | name n => exact hi
      | ordinal n => cases hi; exact .ordinal
  · unfold File.importName
    cases what with
    | name n => rfl
    | ordinal n => cases hi; rfl

/-- **C78.** What parses as an import file has that file kind, and a short import file is never taken for a COFF object. -/
theorem C78_kind (data : List UInt8) (f : File) (h : File.parse data = .ok f) : FileKind.parseAt data 0 = .ok .coffImport := by
  obtain ⟨h1, h2, h3, h4, -⟩ := ((C78_parse data).2 f).1 h
  rw [C41_exact]
  refine ⟨by omega, ?_⟩
  have e : ∀ off, off + 2 ≤ data.length → slice data off 2 = wr .little 2 (field .little data off 2) := by
    intro off hl
    have hb := wr_rd .little (slice data off 2)
    rw [length_slice_of (.inr hl)] at hb
    exact hb.symm
  have e0 := e 0 (by omega)
  have e1 := e 2 (by omega)
  have e2 := e 4 (by omega)
  rw [h2] at e0
  rw [h3] at e1
  rw [h4] at e2
  show slice data 0 6 = _
  have : slice data 0 6 = slice data 0 2 ++ slice data 2 2 ++ slice data 4 2 := by
    unfold slice
    have t1 : (data.drop 0).take 6 = (data.drop 0).take 2 ++ ((data.drop 0).drop 2).take 4 := List.take_add (i := 2) (j := 4)
    have t2 : (data.drop 2).take 4 = (data.drop 2).take 2 ++ ((data.drop 2).drop 2).take 2 := List.take_add (i := 2) (j := 2)
    simp only [List.drop_drop, List.drop_zero, Nat.reduceAdd] at t1 t2 ⊢
    rw [t1, t2, List.append_assoc]
  rw [this, e0, e1, e2]
  decide

/-- **C78.** The architecture is that of COFF objects for the machine, except for PowerPC, which is unknown. -/
theorem C78_architecture (f : File) :
    f.architecture = (if coffArch f.header.machine = .powerPc then .unknown else coffArch f.header.machine) ∧
    (f.arm64EC = true ↔ f.header.machine = 0xa641) := by
  constructor
  · unfold File.architecture coffArch
    generalize f.header.machine = m
    by_cases h1 : m = 0x1c4
    · subst h1; decide
    by_cases h2 : m = 0xaa64 ∨ m = 0xa641
    · rcases h2 with rfl | rfl <;> decide
    by_cases h3 : m = 0x14c
    · subst h3; decide
    by_cases h4 : m = 0x8664
    · subst h4; decide
    by_cases h5 : m = 0x1f0 ∨ m = 0x1f1 ∨ m = 0x1f2
    · rcases h5 with rfl | rfl | rfl <;> decide
    simp only [h1, h2, h3, h4, h5, if_false]
    decide
  · simp [File.arm64EC]

/-- **C78.** The flags hold an import type below 4 and a name type below 8 and give both back. -/
theorem C78_flags (t n : Nat) (ht : t < 4) (hn : n < 8) (h : Header) (hh : h.nameType = flags t n) :
    flags t n = t + 4 * n ∧ h.importType = t ∧ h.importNameType = n := by
  have e : ∀ t : Fin 4, ∀ n : Fin 8, flags t n = t + 4 * n := by decide
  have e' := e ⟨t, ht⟩ ⟨n, hn⟩
  dsimp only at e'
  refine ⟨e', ?_, ?_⟩
  · unfold Header.importType; rw [hh, e', and3]; omega
  · unfold Header.importNameType; rw [hh, e', and7]; omega

/-- `_printf@4` of `c.dll`, imported undecorated, and the same by ordinal. -/
example : File.parse (image 0x14c 7 5 0 3 "_printf@4".toUTF8.toList "c.dll".toUTF8.toList []) =
    .ok ⟨⟨0, 0xffff, 0, 0x14c, 7, 16, 5, 12⟩, .code, "c.dll".toUTF8.toList, "_printf@4".toUTF8.toList, some "printf".toUTF8.toList⟩ ∧
    ((File.parse (image 0x14c 7 5 0 0 "_printf@4".toUTF8.toList "c.dll".toUTF8.toList [])).bind fun f => .ok f.importName) = .ok (.ordinal 5) ∧
    ((File.parse (image 0x14c 7 5 1 4 [65] [66] [67])).bind fun f => .ok (f.kind, f.importName)) = .ok (.data, .name [67]) ∧
    File.parse (image 0x14c 7 5 3 0 [65] [66] [67]) = .err ∧ File.parse (image 0x14c 7 5 0 5 [65] [66] [67]) = .err := by
  refine ⟨?_, ?_, ?_, ?_, ?_⟩ <;> decide +kernel

example : Imports 5 "_printf@4".toUTF8.toList none 3 (.name "printf".toUTF8.toList) :=
  .undecorated (t := "printf@4".toUTF8.toList) ((stripped_iff _ _).2 (by decide +kernel)) ((upToAt_iff _ _).2 (by decide +kernel))

end Obj.Props
