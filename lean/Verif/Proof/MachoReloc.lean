import Verif.Proof.Endian
import Verif.Spec.MachoReloc

namespace Obj

open MachoSpec W

theorem Res.bind_eq_ok {α β : Type} {x : Res α} {f : α → Res β} {b : β} :
    x.bind f = .ok b ↔ ∃ a, x = .ok a ∧ f a = .ok b := by
  cases x with
  | ok a => simp
  | err => simp
  | panic => simp

theorem or_shift (a b i : Nat) (h : b < 2 ^ i) : b ||| (a <<< i) = b + a * 2 ^ i := by
  rw [Nat.or_comm, ← Nat.shiftLeft_add_eq_or_of_lt h, Nat.shiftLeft_eq, Nat.add_comm]

theorem toNat_le (b : Bool) : b.toNat ≤ 1 := by cases b <;> decide

theorem word_little (r : RelInfo) (hl : r.length < 4) (ht : r.typ < 16) :
    (r.words .little).2 = r.symbolnum % 16777216 + r.pcrel.toNat * 16777216 + r.length * 33554432 +
      r.extern_.toNat * 134217728 + r.typ * 268435456 := by
  have h1 : r.symbolnum &&& 0x00ffffff = r.symbolnum % 16777216 :=
    Nat.and_two_pow_sub_one_eq_mod r.symbolnum 24
  have h2 : r.length &&& 3 = r.length := by
    have := Nat.and_two_pow_sub_one_eq_mod r.length 2
    rw [show (2 ^ 2 - 1 : Nat) = 3 from rfl] at this
    rw [this]; exact Nat.mod_eq_of_lt hl
  have hs : r.symbolnum % 16777216 < 16777216 := Nat.mod_lt _ (by decide)
  have hp := toNat_le r.pcrel
  have he := toNat_le r.extern_
  unfold RelInfo.words
  simp only
  rw [h1, h2, or_shift _ _ 24 (by omega), or_shift _ _ 25 (by omega), or_shift _ _ 27 (by omega),
    or_shift _ _ 28 (by omega), Nat.mod_eq_of_lt (by omega)]

theorem bit_toNat (n : Nat) (b : Bool) (h : n % 2 = b.toNat) : decide (n % 2 ≠ 0) = b := by
  rw [h]; cases b <;> rfl

theorem relInfo_words (r : RelInfo) (hl : r.length < 4) (ht : r.typ < 16) :
    relInfo .little (r.words .little) = { r with symbolnum := r.symbolnum % 16777216 } := by
  have hw := word_little r hl ht
  have ha : (r.words .little).1 = r.address := rfl
  generalize r.words .little = w at *
  obtain ⟨w1, w2⟩ := w
  simp only at hw ha
  subst ha
  have hp := toNat_le r.pcrel
  have he := toNat_le r.extern_
  unfold relInfo
  simp only
  have h1 : w2 &&& 0x00ffffff = w2 % 16777216 := Nat.and_two_pow_sub_one_eq_mod w2 24
  have h2 : ∀ x, x &&& 3 = x % 4 := fun x => Nat.and_two_pow_sub_one_eq_mod x 2
  have h3 : ∀ x, x &&& 1 = x % 2 := fun x => Nat.and_two_pow_sub_one_eq_mod x 1
  rw [h1]
  simp only [h2, h3, Nat.shiftRight_eq_div_pow]
  have e1 : w2 % 16777216 = r.symbolnum % 16777216 := by omega
  have e2 : w2 / 2 ^ 25 % 4 = r.length := by omega
  have e3 : w2 / 2 ^ 28 % 256 = r.typ := by omega
  have e4 := bit_toNat (w2 / 2 ^ 24) r.pcrel (by omega)
  have e5 := bit_toNat (w2 / 2 ^ 27) r.extern_ (by omega)
  rw [e1, e2, e3, e4, e5]

theorem word_little_lt (r : RelInfo) (hl : r.length < 4) (ht : r.typ < 16) : (r.words .little).2 < 4294967296 := by
  rw [word_little r hl ht]
  have hp := toNat_le r.pcrel
  have he := toNat_le r.extern_
  have hs : r.symbolnum % 16777216 < 16777216 := Nat.mod_lt _ (by decide)
  omega

theorem word_lt (e : Endianness) (r : RelInfo) : (r.words e).2 < 4294967296 := by
  unfold RelInfo.words
  cases e <;> exact Nat.mod_lt _ (by decide)

theorem list4 (l : List UInt8) (h : l.length = 4) : ∃ a b c d, l = [a, b, c, d] := by
  match l, h with
  | [a, b, c, d], _ => exact ⟨a, b, c, d, rfl⟩

theorem relWords_bytes (e : Endianness) (rs : List RelInfo) (h : ∀ r ∈ rs, r.address < 4294967296) :
    relWords e (rs.flatMap (RelInfo.bytes e)) = rs.map (RelInfo.words e) := by
  induction rs with
  | nil => rfl
  | cons r rs ih =>
    have ih := ih (fun x hx => h x (List.mem_cons_of_mem _ hx))
    rw [List.flatMap_cons, List.map_cons, ← ih]
    unfold RelInfo.bytes
    obtain ⟨a, b, c, d, h1⟩ := list4 (wr e 4 (r.words e).1) (by simp)
    obtain ⟨a', b', c', d', h2⟩ := list4 (wr e 4 (r.words e).2) (by simp)
    have r1 := rd_wr e 4 (r.words e).1 (h r (by simp))
    have r2 := rd_wr e 4 (r.words e).2 (word_lt e r)
    rw [h1] at r1 ⊢
    rw [h2] at r2 ⊢
    show relWords e (a :: b :: c :: d :: a' :: b' :: c' :: d' :: _) = _
    rw [relWords, r1, r2]
    rfl

theorem and_high (n : Nat) (h : n < 2147483648) : n &&& 0x80000000 = 0 := by
  apply Nat.eq_of_testBit_eq
  intro i
  rw [Nat.testBit_and, Nat.zero_testBit]
  by_cases hi : i = 31
  · subst hi
    rw [Nat.testBit_lt_two_pow (by omega)]; rfl
  · have : Nat.testBit 0x80000000 i = false := by
      have := Nat.testBit_two_pow (n := 31) (m := i)
      rw [show (2 : Nat) ^ 31 = 0x80000000 from rfl] at this
      rw [this]; simp; omega
    rw [this]; simp

theorem signExt24_ofSigned (a : Int) (h1 : -8388608 ≤ a) (h2 : a < 8388608) :
    signExt24 (ofSigned 4 a % 16777216) = a := by
  unfold signExt24 ofSigned
  have : (256 : Int) ^ 4 = 4294967296 := rfl
  rw [this]
  simp only
  have e : ((a % 4294967296).toNat : Int) = a % 4294967296 := Int.toNat_of_nonneg (by omega)
  split <;> omega

theorem relInfo_big (r : RelInfo) (hs : r.symbolnum < 16777216) (hl : r.length < 4) (ht : r.typ < 16) :
    (relInfo .big (r.words .big)).symbolnum = r.symbolnum / 65536 := by
  have h2 : r.length &&& 3 = r.length := by
    have := Nat.and_two_pow_sub_one_eq_mod r.length 2
    rw [show (2 ^ 2 - 1 : Nat) = 3 from rfl] at this
    rw [this]; exact Nat.mod_eq_of_lt hl
  have h4 : r.typ &&& 0xf = r.typ := by
    have := Nat.and_two_pow_sub_one_eq_mod r.typ 4
    rw [show (2 ^ 4 - 1 : Nat) = 0xf from rfl] at this
    rw [this]; exact Nat.mod_eq_of_lt ht
  have hp := toNat_le r.pcrel
  have he := toNat_le r.extern_
  unfold RelInfo.words relInfo
  simp only
  rw [h2, h4]
  have hlow : ∀ x, x < 256 → x >>> 8 = 0 := by
    intro x hx; rw [Nat.shiftRight_eq_div_pow]; omega
  rw [show (4294967296 : Nat) = 2 ^ 32 from rfl]
  have hlt : (r.symbolnum >>> 8) ||| (r.pcrel.toNat <<< 7) ||| (r.length <<< 5) |||
        (r.extern_.toNat <<< 4) ||| r.typ < 2 ^ 32 := by
    refine Nat.or_lt_two_pow (Nat.or_lt_two_pow (Nat.or_lt_two_pow (Nat.or_lt_two_pow ?_ ?_) ?_) ?_) ?_ <;>
      (try simp only [Nat.shiftLeft_eq, Nat.shiftRight_eq_div_pow]) <;> omega
  rw [Nat.mod_eq_of_lt hlt]
  simp only [Nat.shiftRight_or_distrib]
  rw [hlow (r.pcrel.toNat <<< 7) (by rw [Nat.shiftLeft_eq]; omega), hlow (r.length <<< 5) (by rw [Nat.shiftLeft_eq]; omega),
    hlow (r.extern_.toNat <<< 4) (by rw [Nat.shiftLeft_eq]; omega), hlow r.typ (by omega)]
  simp only [Nat.or_zero, Nat.shiftRight_eq_div_pow]
  omega


theorem not_scattered (a : Arch) (cpu : Nat) (hc : machoCpu a = .ok cpu) (w : Nat × Nat)
    (h : w.1 < (if a = .x86_64 then 4294967296 else 2147483648)) : relScattered cpu w = false := by
  unfold relScattered
  by_cases ha : a = .x86_64
  · subst ha; cases hc; rfl
  · rw [if_neg ha] at h
    rw [and_high _ h]
    split <;> simp

theorem cpu_arm64 (a : Arch) (cpu : Nat) (hc : machoCpu a = .ok cpu) :
    (Arm64 a ↔ (cpu = 0x0100000c ∨ cpu = 0x0200000c)) ∧ (a = .x86_64 ↔ cpu = 0x01000007) ∧ (a = .i386 ↔ cpu = 7) := by
  unfold Arm64
  cases a <;> cases hc <;> decide

/-- One record that is not scattered. -/
theorem go_cons (cpu : Nat) (p : Int) (sub : Option Nat) (i : RelInfo) (ws : List (Nat × Nat))
    (hs : relScattered cpu (i.words .little) = false) (hl : i.length < 4) (ht : i.typ < 16) :
    machoNextGo .little cpu p sub (i.words .little :: ws) =
      (match machoAction cpu { i with symbolnum := i.symbolnum % 16777216 } with
      | .addend => machoNextGo .little cpu (signExt24 (i.symbolnum % 16777216)) sub ws
      | .subtractor => machoNextGo .little cpu p (some (i.symbolnum % 16777216)) ws
      | .yield_ kind enc size =>
        some ((i.address,
          { kind := kind, enc := enc, size := size,
            target := if i.extern_ then RelTarget.symbol (i.symbolnum % 16777216)
              else if i.symbolnum % 16777216 = 0 then RelTarget.absolute
              else RelTarget.section_ (i.symbolnum % 16777216),
            subtractor := sub,
            addend := p - machoReadPc cpu { i with symbolnum := i.symbolnum % 16777216 },
            implicit := decide (p = 0), typ := i.typ, pcrel := i.pcrel, length := i.length }), ws)) := by
  rw [machoNextGo, hs, if_neg (by simp)]
  simp only [relInfo_words i hl ht]
  generalize machoAction cpu _ = y
  cases y <;> rfl

theorem sub_step (a : Arch) (cpu : Nat) (hc : machoCpu a = .ok cpu) (symIdx : Nat → Nat) (r : Reloc) (len : Nat)
    (hoff : r.offset < (if a = .x86_64 then 4294967296 else 2147483648)) (hlen : len < 4)
    (hsym : ∀ i, symIdx i < 16777216) (l : List RelInfo) (h : subRecord a symIdx r len = .ok l)
    (ws : List (Nat × Nat)) :
    machoNextGo .little cpu 0 none (l.map (RelInfo.words .little) ++ ws) =
      machoNextGo .little cpu 0 (r.subtractor.map symIdx) ws ∧
    (∀ x ∈ l, x.address = r.offset) ∧ l.length = if r.subtractor.isSome then 1 else 0 := by
  have hoff' : r.offset % 4294967296 = r.offset := Nat.mod_eq_of_lt (by split at hoff <;> omega)
  unfold subRecord at h
  simp only at h
  cases hs : r.subtractor with
  | none => rw [hs] at h; cases h; exact ⟨rfl, by simp, rfl⟩
  | some s =>
    rw [hs] at h
    simp only at h
    have hsy : symIdx s % 16777216 = symIdx s := Nat.mod_eq_of_lt (hsym s)
    obtain ⟨c1, c2, c3⟩ := cpu_arm64 a cpu hc
    split at h
    · rename_i ha
      cases h
      refine ⟨?_, by simp [hoff'], rfl⟩
      rw [List.map_cons, List.map_nil, List.singleton_append, go_cons _ _ _ _ _ (not_scattered a cpu hc _ (by
        show r.offset % 4294967296 < _; rw [hoff']; exact hoff)) hlen (by decide : (1 : Nat) < 16)]
      have hcc := c1.1 ha
      have : machoAction cpu ⟨r.offset % 4294967296, symIdx s % 16777216, false, len, true, 1⟩ = .subtractor := by
        obtain rfl | rfl := hcc <;> rfl
      rw [this]
      simp only [hsy, Option.map_some]
    · split at h
      · rename_i hx
        cases h
        refine ⟨?_, by simp [hoff'], rfl⟩
        rw [List.map_cons, List.map_nil, List.singleton_append, go_cons _ _ _ _ _ (not_scattered a cpu hc _ (by
          show r.offset % 4294967296 < _; rw [hoff']; exact hoff)) hlen (by decide : (5 : Nat) < 16)]
        have hcc := c2.1 hx
        have : machoAction cpu ⟨r.offset % 4294967296, symIdx s % 16777216, false, len, true, 5⟩ = .subtractor := by
          subst hcc; rfl
        rw [this]
        simp only [hsy, Option.map_some]
      · cases h

theorem add_step (a : Arch) (cpu : Nat) (hc : machoCpu a = .ok cpu) (r : Reloc) (len : Nat)
    (hoff : r.offset < (if a = .x86_64 then 4294967296 else 2147483648)) (hlen : len < 4)
    (hadd : -8388608 ≤ r.addend ∧ r.addend < 8388608) (l : List RelInfo) (h : addRecord a r len = .ok l)
    (sub : Option Nat) (ws : List (Nat × Nat)) :
    machoNextGo .little cpu 0 sub (l.map (RelInfo.words .little) ++ ws) =
      machoNextGo .little cpu r.addend sub ws ∧
    (∀ x ∈ l, x.address = r.offset) ∧ l.length = if r.addend ≠ 0 then 1 else 0 := by
  have hoff' : r.offset % 4294967296 = r.offset := Nat.mod_eq_of_lt (by split at hoff <;> omega)
  unfold addRecord at h
  split at h
  · rename_i h0
    cases h
    rw [h0]
    exact ⟨rfl, by simp, rfl⟩
  · rename_i h0
    split at h
    · rename_i ha
      cases h
      refine ⟨?_, by simp [hoff'], by rw [if_pos h0]; rfl⟩
      rw [List.map_cons, List.map_nil, List.singleton_append, go_cons _ _ _ _ _ (not_scattered a cpu hc _ (by
        show r.offset % 4294967296 < _; rw [hoff']; exact hoff)) hlen (by decide : (10 : Nat) < 16)]
      have hcc := (cpu_arm64 a cpu hc).1.1 ha
      have : machoAction cpu ⟨r.offset % 4294967296, ofSigned 4 r.addend % 16777216, false, len, false, 10⟩ = .addend := by
        obtain rfl | rfl := hcc <;> rfl
      rw [this]
      simp only [signExt24_ofSigned _ hadd.1 hadd.2]
    · cases h

theorem action_yield (a : Arch) (cpu : Nat) (hc : machoCpu a = .ok cpu) (typ len : Nat) (pcrel : Bool)
    (h : ¬ (Arm64 a ∧ (typ = 1 ∨ typ = 10)) ∧ ¬ (a = .x86_64 ∧ typ = 5)) :
    ∃ k e s, ∀ address symbolnum ext,
      machoAction cpu ⟨address, symbolnum, pcrel, len, ext, typ⟩ = .yield_ k e s := by
  obtain ⟨c1, c2, c3⟩ := cpu_arm64 a cpu hc
  obtain ⟨h1, h2⟩ := h
  have key : ∀ r : RelInfo, r.typ = typ → ∃ k e s, machoAction cpu r = .yield_ k e s := by
    intro r hr
    unfold machoAction
    dsimp only
    generalize 8 * 2 ^ r.length % 256 = z
    rw [hr]
    generalize hq : r.pcrel = q
    have n1 : cpu = 0x0100000c ∨ cpu = 0x0200000c → typ ≠ 1 ∧ typ ≠ 10 := fun ha =>
      ⟨fun h => h1 ⟨c1.2 ha, .inl h⟩, fun h => h1 ⟨c1.2 ha, .inr h⟩⟩
    have n2 : cpu = 0x01000007 → typ ≠ 5 := fun ha h => h2 ⟨c2.2 ha, h⟩
    by_cases k1 : cpu = 12
    · rw [if_pos k1]; split <;> exact ⟨_, _, _, rfl⟩
    rw [if_neg k1]
    by_cases k2 : cpu = 0x0100000c ∨ cpu = 0x0200000c
    · rw [if_pos k2, if_neg (n1 k2).1, if_neg (n1 k2).2]
      repeat' split
      all_goals exact ⟨_, _, _, rfl⟩
    rw [if_neg k2]
    by_cases k3 : cpu = 7
    · rw [if_pos k3]; split <;> exact ⟨_, _, _, rfl⟩
    rw [if_neg k3]
    by_cases k4 : cpu = 0x01000007
    · rw [if_pos k4, if_neg (n2 k4)]
      repeat' split
      all_goals exact ⟨_, _, _, rfl⟩
    rw [if_neg k4]
    by_cases k5 : cpu = 18 ∨ cpu = 0x01000012
    · rw [if_pos k5]; split <;> exact ⟨_, _, _, rfl⟩
    rw [if_neg k5]
    exact ⟨_, _, _, rfl⟩
  obtain ⟨k, e, s, hk⟩ := key ⟨0, 0, pcrel, len, false, typ⟩ rfl
  exact ⟨k, e, s, fun _ _ _ => hk⟩

theorem main_step (a : Arch) (cpu : Nat) (hc : machoCpu a = .ok cpu) (symIdx secIdx : Nat → Nat)
    (symbols : List Symbol) (r : Reloc) (typ len : Nat) (pcrel : Bool) (hf : r.flags = .macho typ pcrel len)
    (hst : Storable a symIdx secIdx r typ len) (l : List RelInfo)
    (h : mainRecord symIdx secIdx symbols r typ pcrel len = .ok l) (ws : List (Nat × Nat)) :
    (∃ x, machoNextGo .little cpu r.addend (r.subtractor.map symIdx) (l.map (RelInfo.words .little) ++ ws) =
        some (x, ws) ∧ ReadsAs cpu symIdx secIdx symbols r x) ∧
    (∀ x ∈ l, x.address = r.offset) ∧ l.length = 1 := by
  have hoff := hst.offset
  have hoff' : r.offset % 4294967296 = r.offset := Nat.mod_eq_of_lt (by split at hoff <;> omega)
  obtain ⟨k, e, s, hact⟩ := action_yield a cpu hc typ len pcrel hst.plain
  unfold mainRecord at h
  cases hy : symbols[r.symbol]? with
  | none => rw [hy] at h; cases h
  | some y =>
    rw [hy] at h
    simp only at h
    have fin : ∀ (num : Nat) (ext : Bool), num < 16777216 →
        ((y.kind ≠ .sectionSym → ext = true ∧ num = symIdx r.symbol) ∧
          (y.kind = .sectionSym → ext = false ∧ ∃ i, y.section_.id? = some i ∧ num = secIdx i)) →
        (∃ x, machoNextGo .little cpu r.addend (r.subtractor.map symIdx)
            (([{ address := r.offset % 4294967296, symbolnum := num, pcrel := pcrel, length := len, extern_ := ext,
                 typ := typ }] : List RelInfo).map (RelInfo.words .little) ++ ws) =
          some (x, ws) ∧ ReadsAs cpu symIdx secIdx symbols r x) := by
      intro num ext hnum htar
      rw [List.map_cons, List.map_nil, List.singleton_append, go_cons _ _ _ _ _ (not_scattered a cpu hc _ (by
        show r.offset % 4294967296 < _; rw [hoff']; exact hoff)) hst.len_lt hst.typ_lt]
      rw [Nat.mod_eq_of_lt hnum, hact]
      refine ⟨_, rfl, ?_⟩
      constructor
      · exact hoff'
      · exact hf
      · rfl
      · refine ⟨y, hy, ?_, ?_⟩
        · intro hk
          obtain ⟨rfl, rfl⟩ := htar.1 hk
          rfl
        · intro hk
          obtain ⟨rfl, i, hi, rfl⟩ := htar.2 hk
          exact ⟨i, hi, rfl⟩
      · exact hact
      · simp only [machoReadPc]
        cases pcrel <;> rfl
      · rfl
    split at h
    · rename_i hk
      split at h
      · cases h
      · rename_i i hi
        cases h
        exact ⟨fin _ _ (hst.secs i) ⟨fun hn => absurd hk hn, fun _ => ⟨rfl, i, hi, rfl⟩⟩, by simp [hoff'], rfl⟩
    · rename_i hk
      cases h
      exact ⟨fin _ _ (hst.syms _) ⟨fun _ => ⟨rfl, rfl⟩, fun hn => absurd hn hk⟩, by simp [hoff'], rfl⟩

theorem records_step (a : Arch) (cpu : Nat) (hc : machoCpu a = .ok cpu) (symIdx secIdx : Nat → Nat)
    (symbols : List Symbol) (r : Reloc) (hst : ∀ typ pcrel len, r.flags = .macho typ pcrel len →
      Storable a symIdx secIdx r typ len) (l : List RelInfo)
    (h : machoRecords a symIdx secIdx symbols r = .ok l) (ws : List (Nat × Nat)) :
    (∃ x, machoNext .little cpu (l.map (RelInfo.words .little) ++ ws) = some (x, ws) ∧
      ReadsAs cpu symIdx secIdx symbols r x) ∧
    (∀ x ∈ l, x.address < 4294967296) ∧
    l.length = 1 + (if r.addend ≠ 0 then 1 else 0) + (if r.subtractor.isSome then 1 else 0) := by
  unfold machoRecords at h
  split at h
  · rename_i typ pcrel len hf
    have hst := hst _ _ _ hf
    obtain ⟨s, h1, h⟩ := Res.bind_eq_ok.1 h
    obtain ⟨ad, h2, h⟩ := Res.bind_eq_ok.1 h
    obtain ⟨m, h3, h⟩ := Res.bind_eq_ok.1 h
    cases h
    have hoff := hst.offset
    obtain ⟨a1, b1, c1⟩ := sub_step a cpu hc symIdx r len hst.offset hst.len_lt hst.syms s h1
      (ad.map (RelInfo.words .little) ++ (m.map (RelInfo.words .little) ++ ws))
    obtain ⟨a2, b2, c2⟩ := add_step a cpu hc r len hst.offset hst.len_lt hst.addend ad h2
      (r.subtractor.map symIdx) (m.map (RelInfo.words .little) ++ ws)
    obtain ⟨a3, b3, c3⟩ := main_step a cpu hc symIdx secIdx symbols r typ len pcrel hf hst m h3 ws
    refine ⟨?_, ?_, ?_⟩
    · unfold machoNext
      simp only [List.map_append, List.append_assoc]
      rw [a1, a2]
      exact a3
    · intro x hx
      simp only [List.mem_append] at hx
      have : x.address = r.offset := by
        obtain (hx | hx) | hx := hx
        · exact b1 x hx
        · exact b2 x hx
        · exact b3 x hx
      rw [this]; split at hoff <;> omega
    · simp only [List.length_append, c1, c2, c3]; omega
  · cases h

theorem machoAll_cons (e : Endianness) (cpu : Nat) (ws ws' : List (Nat × Nat)) (x : Nat × MachoRelocation)
    (h : machoNext e cpu ws = some (x, ws')) : machoAll e cpu ws = x :: machoAll e cpu ws' := by
  rw [machoAll.eq_def]
  split
  · rename_i h'; rw [h] at h'; cases h'
  · rename_i h'; rw [h] at h'; cases h'; rfl

theorem recordsAll_step (a : Arch) (cpu : Nat) (hc : machoCpu a = .ok cpu) (symIdx secIdx : Nat → Nat)
    (symbols : List Symbol) (rs : List Reloc) (hst : ∀ r ∈ rs, ∀ typ pcrel len, r.flags = .macho typ pcrel len →
      Storable a symIdx secIdx r typ len) (l : List RelInfo)
    (h : machoRecordsAll a symIdx secIdx symbols rs = .ok l) :
    All2 (ReadsAs cpu symIdx secIdx symbols) rs (machoAll .little cpu (l.map (RelInfo.words .little))) ∧
    (∀ x ∈ l, x.address < 4294967296) ∧ l.length = machoCount rs := by
  induction rs generalizing l with
  | nil =>
    cases h
    refine ⟨?_, by simp, rfl⟩
    rw [List.map_nil, machoAll.eq_def]
    exact .nil
  | cons r rs ih =>
    unfold machoRecordsAll at h
    obtain ⟨x, h1, h⟩ := Res.bind_eq_ok.1 h
    obtain ⟨b, h2, h⟩ := Res.bind_eq_ok.1 h
    cases h
    obtain ⟨p1, p2, p3⟩ := ih (fun r hr => hst r (List.mem_cons_of_mem _ hr)) b h2
    obtain ⟨⟨y, q1, q1'⟩, q2, q3⟩ := records_step a cpu hc symIdx secIdx symbols r (hst r (by simp)) x h1
      (b.map (RelInfo.words .little))
    refine ⟨?_, ?_, ?_⟩
    · rw [List.map_append, machoAll_cons _ _ _ _ _ q1]
      exact .cons q1' p1
    · intro z hz
      rcases List.mem_append.1 hz with hz | hz
      · exact q2 z hz
      · exact p2 z hz
    · rw [List.length_append, p3, q3]
      simp [machoCount]

end Obj
