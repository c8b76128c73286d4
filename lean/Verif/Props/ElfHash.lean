import Verif.Proof.ElfHash

/-! # C17, C18, C19, C52: ELF hash tables -/

namespace Obj.Props
open Obj Obj.Elf Obj.Spec.ElfHashS

/-! ## C52: the hash functions -/

private theorem sysv_step (hc : Nat) (hr : UInt32) (c : UInt8) (h : hc % 2 ^ 28 = hr.toNat) (h28 : hr.toNat < 2 ^ 28) :
    let x := (hc * 16 + c.toNat) % U32
    let y := (hr <<< 4) + c.toUInt32
    let g := y &&& 0xf0000000
    let y' := (if g != 0 then y ^^^ (g >>> 24) else y) &&& ~~~g
    (x ^^^ ((x >>> 24) &&& 0xf0)) % 2 ^ 28 = y'.toNat ∧ y'.toNat < 2 ^ 28 := by
  intro x y g y'
  have hy : y.toNat = x := by
    have : y.toNat = (hr.toNat * 16 % 2 ^ 32 + c.toNat) % 2 ^ 32 := by
      simp only [y, UInt32.toNat_add, UInt32.toNat_shiftLeft, UInt8.toNat_toUInt32]
      simp [Nat.shiftLeft_eq]
    rw [this]
    simp only [x]
    have hc8 := c.toNat_lt
    omega
  have hif : (if g != 0 then y ^^^ (g >>> 24) else y) = y ^^^ (g >>> 24) := by
    split
    · rfl
    · rename_i hg
      have : g = 0 := by simpa using hg
      rw [this]; simp
  have hy' : y' = (y ^^^ (g >>> 24)) &&& ~~~g := by simp only [y', hif]
  have hbits : ∀ i, y'.toNat.testBit i = (decide (i < 28) && (y.toNat ^^^ ((y.toNat >>> 24) &&& 0xf0)).testBit i) := by
    intro i
    rw [hy']
    by_cases h32 : i < 32
    · have e : y'.toNat.testBit i = y'.toBitVec.getLsbD i := rfl
      have key : (((y ^^^ (g >>> 24)) &&& ~~~g).toNat).testBit i =
          (((y.toNat.testBit i) ^^ ((y.toNat.testBit (24 + i)) && (0xf0000000 : Nat).testBit (24 + i))) &&
            !(y.toNat.testBit i && (0xf0000000 : Nat).testBit i)) := by
        have t1 : ((y ^^^ (g >>> 24)) &&& ~~~g).toNat.testBit i = ((y ^^^ (g >>> 24)) &&& ~~~g).toBitVec.getLsbD i := rfl
        have t2 : g.toBitVec = y.toBitVec &&& 0xf0000000#32 := rfl
        have t3 : (g >>> 24).toBitVec = g.toBitVec >>> 24 := by
          simp [UInt32.toBitVec_shiftRight]
        rw [t1]
        simp only [UInt32.toBitVec_and, UInt32.toBitVec_xor, UInt32.toBitVec_not, t3, t2, BitVec.getLsbD_and, BitVec.getLsbD_xor,
          BitVec.getLsbD_not, BitVec.getLsbD_ushiftRight, h32, decide_true, Bool.true_and]
        rfl
      rw [key, Nat.testBit_xor, Nat.testBit_and, Nat.testBit_shiftRight]
      have hall : ∀ i, i < 32 → ((0xf0000000 : Nat).testBit (24 + i) = (0xf0 : Nat).testBit i) ∧ ((0xf0000000 : Nat).testBit i = decide (28 ≤ i)) ∧
          (28 ≤ i → (0xf0 : Nat).testBit i = false) := by decide
      obtain ⟨a1, a2, a3⟩ := hall i h32
      rw [a1, a2]
      by_cases h28 : i < 28
      · have : ¬ 28 ≤ i := by omega
        simp [h28]
      · have h28' : 28 ≤ i := by omega
        simp [h28, h28', a3 h28']
    · have : ((y ^^^ (g >>> 24)) &&& ~~~g).toNat.testBit i = false := by
        apply Nat.testBit_lt_two_pow
        exact Nat.lt_of_lt_of_le (UInt32.toNat_lt _) (Nat.pow_le_pow_right (by omega) (by omega))
      rw [this]
      have : ¬ i < 28 := by omega
      simp [this]
  constructor
  · apply Nat.eq_of_testBit_eq
    intro i
    rw [hbits, Nat.testBit_mod_two_pow, hy]
  · apply Nat.lt_pow_two_of_testBit
    intro i hi
    rw [hbits]
    simp; omega

/-- C52: for every name, the SysV hash function equals the reference implementation of the System V ABI (although the code
folds differently), and the GNU hash function equals the reference GNU hash. -/
theorem C52_hash_functions (name : List UInt8) :
    sysvHash name = (abiHash name).toNat ∧ gnuHash name = (djbHash name).toNat := by
  constructor
  · unfold sysvHash abiHash
    have hgen : ∀ (hc : Nat) (hr : UInt32), hc % 2 ^ 28 = hr.toNat → hr.toNat < 2 ^ 28 →
        (name.foldl (fun hash byte =>
          let hash := (hash * 16 + byte.toNat) % U32
          hash ^^^ ((hash >>> 24) &&& 0xf0)) hc) % 2 ^ 28 =
        (name.foldl (fun (h : UInt32) (c : UInt8) =>
          let h := (h <<< 4) + c.toUInt32
          let g := h &&& 0xf0000000
          let h := if g != 0 then h ^^^ (g >>> 24) else h
          h &&& ~~~g) hr).toNat := by
      induction name with
      | nil => intro hc hr h _; exact h
      | cons c cs ih =>
        intro hc hr h h28
        simp only [List.foldl_cons]
        have := sysv_step hc hr c h h28
        exact ih _ _ this.1 this.2
    rw [show (0xfffffff : Nat) = 2 ^ 28 - 1 from rfl, Nat.and_two_pow_sub_one_eq_mod]
    exact hgen 0 0 rfl (by decide)
  · unfold gnuHash djbHash
    have hgen : ∀ (hc : Nat) (hr : UInt32), hc = hr.toNat →
        name.foldl (fun hash byte => (hash * 33 + byte.toNat) % U32) hc =
        (name.foldl (fun (h : UInt32) (c : UInt8) => (h <<< 5) + h + c.toUInt32) hr).toNat := by
      induction name with
      | nil => intro hc hr h; exact h
      | cons c cs ih =>
        intro hc hr h
        simp only [List.foldl_cons]
        apply ih
        rw [h]
        have hc8 := c.toNat_lt
        simp only [UInt32.toNat_add, UInt32.toNat_shiftLeft, UInt8.toNat_toUInt32, Nat.shiftLeft_eq]
        have : (5 : UInt32).toNat % 32 = 5 := rfl
        rw [this]
        omega
    exact hgen 5381 5381 rfl

example : sysvHash "printf".toUTF8.toList = 0x77905a6 ∧ sysvHash (List.replicate 20 0xff) ≠ 0 ∧
    gnuHash "printf".toUTF8.toList = 0x156b2bb8 := by decide +kernel

/-! ## C17: SysV tables -/

private theorem sysv_parse (en : Endianness) (bc cc : Nat) (hashOf : Nat → Option Nat) (bytes tl : List UInt8) (hbc : 0 < bc)
    (hb : bc < U32) (hc : cc < U32) (hw : hashTable en bc cc hashOf = .ok bytes) (hl : (bytes ++ tl).length < U64) :
    HashTable.parse en (bytes ++ tl) = .ok ⟨(List.range bc).map (fun b => prevIn bc hashOf b cc),
      (List.range cc).map (chainOf bc hashOf)⟩ := by
  unfold hashTable at hw
  rw [if_neg (by omega), hash_fold bc cc hashOf hbc cc (Nat.le_refl _)] at hw
  have hch : (List.range cc).map (fun i => if i < cc then chainOf bc hashOf i else 0) = (List.range cc).map (chainOf bc hashOf) := by
    apply List.map_congr_left; intro i hi; rw [if_pos (List.mem_range.1 hi)]
  rw [hch] at hw
  simp only [Res.ok.injEq] at hw
  generalize hB : (List.range bc).map (fun b => prevIn bc hashOf b cc) = B at hw ⊢
  generalize hC : (List.range cc).map (chainOf bc hashOf) = C at hw ⊢
  have hBl : B.length = bc := by rw [← hB]; simp
  have hCl : C.length = cc := by rw [← hC]; simp
  have hB32 : ∀ x ∈ B, x < 256 ^ 4 := by
    intro x hx; rw [← hB] at hx
    obtain ⟨b, -, rfl⟩ := List.mem_map.1 hx
    exact prevIn_lt _ _ _ _ _ (by omega) (by decide)
  have hC32 : ∀ x ∈ C, x < 256 ^ 4 := by
    intro x hx; rw [← hC] at hx
    obtain ⟨b, hb', rfl⟩ := List.mem_map.1 hx
    have := List.mem_range.1 hb'
    exact chainOf_lt _ _ _ _ (by omega) (by decide)
  subst hw
  have hlw := length_words en
  simp only [List.length_append, hlw, List.length_cons, List.length_nil] at hl
  unfold HashTable.parse
  have e1 := Archive.read_at_append (pre := []) (b := words en [bc, cc]) (post := words en B ++ (words en C ++ tl)) (n := 8) (by rw [hlw]; rfl)
    (by simp only [List.length_append, hlw, List.length_cons, List.length_nil]; omega)
  have e2 := readSlice_words en (words en [bc, cc]) B (words en C ++ tl)
    (by simp only [List.length_append, hlw, List.length_cons, List.length_nil]; omega)
  have e3 := readSlice_words en (words en [bc, cc] ++ words en B) C tl
    (by simp only [List.length_append, hlw, List.length_cons, List.length_nil]; omega)
  have f0 : field en (words en [bc, cc]) 0 4 = bc := by
    have := field_encode_zero en 4 bc [(4, cc)] [] (by omega)
    simpa [words, encode] using this
  have f1 : field en (words en [bc, cc]) 4 4 = cc := by
    have := field_encode_succ en 4 bc [(4, cc)] [] (off := 4) (w' := 4) (by omega)
    have h2 := field_encode_zero en 4 cc [] [] (by omega)
    simp [words, encode] at this h2 ⊢
    rw [this, h2]
  simp only [List.nil_append, List.length_nil, Nat.zero_add, hlw, List.length_cons, List.append_assoc, List.length_append] at e1 e2 e3 ⊢
  simp only [e1, Res.bind_eq, Res.ok_bind, f0, f1]
  rw [hBl] at e2 e3
  rw [hCl] at e3
  have c8 : 4 * (0 + 1 + 1) = 8 := rfl
  simp only [c8] at e2 e3
  simp only [e2, e3, Res.ok_bind, map_rd_wr en 4 B hB32, map_rd_wr en 4 C hC32]

/-- C17: a SysV hash table written by the encoder for the symbols `k < chain_count` with `hash(k) = Some(_)` (never the
null symbol) is read back, whatever follows it, with the same number of symbols, and a lookup by hash returns exactly the
last symbol in the bucket with that name and a matching version; it returns none iff there is no such symbol. -/
theorem C17_sysv_lookup (en : Endianness) (bc cc : Nat) (hashOf : Nat → Option Nat) (tl : List UInt8) (hbc : 0 < bc) (hb : bc < U32)
    (hc : cc < U32) (h0 : hashOf 0 = none) :
    ∃ bytes, hashTable en bc cc hashOf = .ok bytes ∧ ((bytes ++ tl).length < U64 →
      ∃ t, HashTable.parse en (bytes ++ tl) = .ok t ∧ t.symbolTableLength = cc ∧
        ∀ (S : SymTab) (versions : VersionTable) (data name : List UInt8) (version : Option Version) (h : Nat),
          (∀ j s, t.find data name h version S versions = some (j, s) ↔
            InBucket bc cc hashOf h j ∧ Hit S versions data name version j s ∧
              ∀ k s', InBucket bc cc hashOf h k → Hit S versions data name version k s' → k ≤ j) ∧
          (t.find data name h version S versions = none ↔
            ∀ k s, InBucket bc cc hashOf h k → ¬ Hit S versions data name version k s)) := by
  have hw : ∃ bytes, hashTable en bc cc hashOf = .ok bytes := by
    unfold hashTable; rw [if_neg (by omega)]; exact ⟨_, rfl⟩
  obtain ⟨bytes, hw⟩ := hw
  refine ⟨bytes, hw, fun hl => ⟨_, sysv_parse en bc cc hashOf bytes tl hbc hb hc hw hl, ?_, ?_⟩⟩
  · simp [HashTable.symbolTableLength]; omega
  intro S versions data name version h
  generalize ht : (⟨(List.range bc).map (fun b => prevIn bc hashOf b cc), (List.range cc).map (chainOf bc hashOf)⟩ : HashTable) = t
  have htc : t.chains = (List.range cc).map (chainOf bc hashOf) := by rw [← ht]
  have htb : t.buckets = (List.range bc).map (fun b => prevIn bc hashOf b cc) := by rw [← ht]
  have hfind : t.find data name h version S versions =
      t.findLoop data name version S versions cc (prevIn bc hashOf (h % bc) cc) := by
    unfold HashTable.find
    have hbl : t.buckets.length = bc := by rw [htb]; simp
    have hcl : t.chains.length = cc := by rw [htc]; simp
    have hm : h % bc < bc := Nat.mod_lt _ hbc
    rw [hbl, hcl, if_neg (by omega), htb]
    simp [List.getElem?_range, hm]
  have hiff : ∀ j s, t.find data name h version S versions = some (j, s) ↔
            InBucket bc cc hashOf h j ∧ Hit S versions data name version j s ∧
              ∀ k s', InBucket bc cc hashOf h k → Hit S versions data name version k s' → k ≤ j := by
    intro j s
    rw [hfind, findLoop_iff bc cc hashOf h0 t htc S versions data name version h j s cc cc (Nat.le_refl _) (Nat.le_refl _)]
    constructor
    · rintro ⟨a, b, c, d⟩
      exact ⟨b, c, fun k s' hk => d k s' hk.1 hk⟩
    · rintro ⟨b, c, d⟩
      exact ⟨b.1, b, c, fun k s' _ hk => d k s' hk⟩
  refine ⟨hiff, ?_⟩
  constructor
  · intro hn k s hk hh
    -- the greatest hit would have been found
    have hmax : ∀ n, (∃ k s, k < n ∧ InBucket bc cc hashOf h k ∧ Hit S versions data name version k s) →
        ∃ j s, InBucket bc cc hashOf h j ∧ Hit S versions data name version j s ∧
          ∀ k s', k < n → InBucket bc cc hashOf h k → Hit S versions data name version k s' → k ≤ j := by
      intro n
      induction n with
      | zero => rintro ⟨k, s, hk, -⟩; omega
      | succ n ih =>
        rintro ⟨k, s, hk, hb', hh'⟩
        by_cases hn' : ∃ s', InBucket bc cc hashOf h n ∧ Hit S versions data name version n s'
        · obtain ⟨s', h1, h2⟩ := hn'
          exact ⟨n, s', h1, h2, fun k _ hk _ _ => by omega⟩
        · have hkn : k ≠ n := by intro he; subst he; exact hn' ⟨s, hb', hh'⟩
          obtain ⟨j, s1, a, b, c⟩ := ih ⟨k, s, by omega, hb', hh'⟩
          refine ⟨j, s1, a, b, fun k' s' hk' hb1 hh1 => ?_⟩
          by_cases he : k' = n
          · subst he; exact absurd ⟨s', hb1, hh1⟩ hn'
          · exact c k' s' (by omega) hb1 hh1
    obtain ⟨j, s1, a, b, c⟩ := hmax cc ⟨k, s, hk.1, hk, hh⟩
    have := (hiff j s1).2 ⟨a, b, fun k' s' hk' hh' => c k' s' hk'.1 hk' hh'⟩
    rw [hn] at this; simp at this
  · intro hno
    cases hf : t.find data name h version S versions with
    | none => rfl
    | some p =>
      obtain ⟨j, s⟩ := p
      have := (hiff j s).1 hf
      exact absurd this.2.1 (hno j s this.1)

/-- C17 (as used): if each hashed symbol was entered under the hash of its own name, a lookup of a name returns a symbol of
that name with a matching version whenever the table has one, and none otherwise. -/
theorem C17_lookup_by_name (en : Endianness) (bc cc : Nat) (hashOf : Nat → Option Nat) (tl bytes : List UInt8) (hbc : 0 < bc)
    (hb : bc < U32) (hc : cc < U32) (h0 : hashOf 0 = none) (hw : hashTable en bc cc hashOf = .ok bytes)
    (hl : (bytes ++ tl).length < U64) (S : SymTab) (versions : VersionTable) (data : List UInt8)
    (hh : ∀ (k : Nat) s n h, S.symbols[k]? = some s → S.strings.get data s.name = .ok n → hashOf k = some h → h = sysvHash n) :
    ∃ t, HashTable.parse en (bytes ++ tl) = .ok t ∧ ∀ (name : List UInt8) (version : Option Version),
      (∀ k s, k < cc → hashOf k ≠ none → Hit S versions data name version k s →
        ∃ j s', t.find data name (sysvHash name) version S versions = some (j, s') ∧ Hit S versions data name version j s' ∧
          j < cc ∧ hashOf j ≠ none ∧ k ≤ j) ∧
      ((∀ k s, k < cc → hashOf k ≠ none → ¬ Hit S versions data name version k s) →
        t.find data name (sysvHash name) version S versions = none) := by
  obtain ⟨bytes', hw', hrest⟩ := C17_sysv_lookup en bc cc hashOf tl hbc hb hc h0
  rw [hw] at hw'; cases hw'
  obtain ⟨t, ht, -, hspec⟩ := hrest hl
  refine ⟨t, ht, fun name version => ?_⟩
  obtain ⟨h1, h2⟩ := hspec S versions data name version (sysvHash name)
  have hin : ∀ k s, k < cc → hashOf k ≠ none → Hit S versions data name version k s → InBucket bc cc hashOf (sysvHash name) k := by
    intro k s hk hn hit
    cases hhk : hashOf k with
    | none => exact absurd hhk hn
    | some h =>
      refine ⟨hk, h, hhk, ?_⟩
      rw [hh k s name h hit.2.1 hit.2.2.1 hhk]
  constructor
  · intro k s hk hn hit
    have hne : t.find data name (sysvHash name) version S versions ≠ none := by
      intro he; exact h2.1 he k s (hin k s hk hn hit) hit
    obtain ⟨⟨j, s'⟩, hf⟩ := Option.ne_none_iff_exists'.1 hne
    obtain ⟨a, b, c⟩ := (h1 j s').1 hf
    refine ⟨j, s', hf, b, a.1, ?_, c k s (hin k s hk hn hit) hit⟩
    obtain ⟨-, h', ha, -⟩ := a
    rw [ha]; simp
  · intro hno
    apply h2.2
    intro k s hk
    obtain ⟨hk1, h', ha, -⟩ := hk
    exact hno k s hk1 (by rw [ha]; simp)

/-! ## C18: GNU tables -/

private theorem gnu_find_ok (c : Cfg) (t : GnuHashTable) (hs : t.bloomShift < 32) (data name : List UInt8) (h : Nat)
    (version : Option Version) (S : SymTab) (versions : VersionTable) : ∃ r, t.find c data name h version S versions = .ok r := by
  unfold GnuHashTable.find
  simp only
  split
  · exact ⟨_, rfl⟩
  split
  · split
    · exact ⟨_, rfl⟩
    rw [if_neg (by omega)]
    split
    · exact ⟨_, rfl⟩
    split
    · exact ⟨_, rfl⟩
    rename_i hb
    have hm : h % t.buckets.length < t.buckets.length := Nat.mod_lt _ (by omega)
    rw [List.getElem?_eq_getElem hm]
    simp only
    repeat' split
    all_goals exact ⟨_, rfl⟩
  · exact ⟨_, rfl⟩
  · rename_i hp
    exact absurd hp (readRef_readBytesAt_no_panic _ _ _)

/-- What parsing a written GNU table yields. -/
private theorem gnu_parse (c : Cfg) (t : WGnuHash) (fs B : List Nat) (post : List UInt8)
    (hfs : fs.length = t.bloomCount) (hB : B.length = t.bucketCount) (vs : List Nat) (hbc : t.bucketCount < U32)
    (hbl : t.bloomCount < U32) (hsh : t.bloomShift < U32) (hba : t.symbolBase < U32) (hB32 : ∀ x ∈ B, x < U32) (hv32 : ∀ x ∈ vs, x < U32)
    (hl : (words c.en [t.bucketCount, t.symbolBase, t.bloomCount, t.bloomShift] ++ fs.flatMap (wr c.en c.w) ++
      words c.en B ++ words c.en vs ++ post).length < U64) :
    ∃ extra, GnuHashTable.parse c (words c.en [t.bucketCount, t.symbolBase, t.bloomCount, t.bloomShift] ++ fs.flatMap (wr c.en c.w) ++
      words c.en B ++ words c.en vs ++ post) = .ok ⟨t.symbolBase, t.bloomShift, fs.flatMap (wr c.en c.w), B, vs ++ extra⟩ := by
  have hlw := length_words c.en
  have hff : (fs.flatMap (wr c.en c.w)).length = t.bloomCount * c.w := by
    rw [length_flatMap_const (wr c.en c.w) c.w fs (by simp), hfs]
  generalize hH : words c.en [t.bucketCount, t.symbolBase, t.bloomCount, t.bloomShift] = H at hl ⊢
  have hHl : H.length = 16 := by rw [← hH, hlw]; rfl
  have hf : field c.en H 0 4 = t.bucketCount ∧ field c.en H 4 4 = t.symbolBase ∧ field c.en H 8 4 = t.bloomCount ∧
      field c.en H 12 4 = t.bloomShift := by
    have e : H = encode c.en [(4, t.bucketCount), (4, t.symbolBase), (4, t.bloomCount), (4, t.bloomShift)] ++ [] := by
      rw [← hH]; simp [words, encode]
    rw [e]
    refine ⟨?_, ?_, ?_, ?_⟩
    · exact field_encode_zero _ _ _ _ _ (by omega)
    · rw [field_encode_succ _ _ _ _ _ _ _ (by omega)]; exact field_encode_zero _ _ _ _ _ (by omega)
    · rw [field_encode_succ _ _ _ _ _ _ _ (by omega), field_encode_succ _ _ _ _ _ _ _ (by omega)]
      exact field_encode_zero _ _ _ _ _ (by omega)
    · rw [field_encode_succ _ _ _ _ _ _ _ (by omega), field_encode_succ _ _ _ _ _ _ _ (by omega), field_encode_succ _ _ _ _ _ _ _ (by omega)]
      exact field_encode_zero _ _ _ _ _ (by omega)
  generalize hF : fs.flatMap (wr c.en c.w) = F at hl hff ⊢
  simp only [List.length_append, hlw] at hl
  have e1 := Archive.read_at_append (pre := []) (b := H) (post := F ++ (words c.en B ++ (words c.en vs ++ post))) (n := 16) hHl
    (by simp only [List.length_append, hlw, List.length_nil]; omega)
  have e2 := Archive.read_at_append (pre := H) (b := F) (post := words c.en B ++ (words c.en vs ++ post)) (n := t.bloomCount * c.w) hff
    (by simp only [List.length_append, hlw]; omega)
  have e3 := readSlice_words c.en (H ++ F) B (words c.en vs ++ post) (by simp only [List.length_append, hlw]; omega)
  have hpl : post.length = 4 * (post.length / 4) + post.length % 4 := by omega
  have e4 : ReadRef.readSlice (H ++ F ++ words c.en B ++ (words c.en vs ++ post)) (H ++ F ++ words c.en B).length 4 (vs.length + post.length / 4) =
      (.ok (vs.map (wr c.en 4) ++ Bytes.chunks 4 (post.length / 4) (post.take (4 * (post.length / 4)))),
        (H ++ F ++ words c.en B).length + (vs.length + post.length / 4) * 4) := by
    unfold ReadRef.readSlice
    have hlen : (words c.en vs ++ post.take (4 * (post.length / 4))).length = (vs.length + post.length / 4) * 4 := by
      rw [List.length_append, hlw, List.length_take, Nat.min_eq_left (by omega)]; omega
    rw [if_neg (by omega)]
    have := Archive.read_at_append (pre := H ++ F ++ words c.en B) (b := words c.en vs ++ post.take (4 * (post.length / 4)))
      (post := post.drop (4 * (post.length / 4))) (n := (vs.length + post.length / 4) * 4) hlen
      (by simp only [List.length_append, hlw, List.length_take, List.length_drop]; omega)
    rw [List.append_assoc (words c.en vs), List.take_append_drop] at this
    unfold ReadRef.read at this
    rw [this]
    dsimp only
    rw [chunks_append 4 _ _ _ _ (by rw [hlw]; omega)]
    have h2 := chunks_flatMap (wr c.en 4) 4 vs (by simp) []
    rw [List.append_nil] at h2
    rw [show words c.en vs = vs.flatMap (wr c.en 4) from rfl, h2]
  refine ⟨(Bytes.chunks 4 (post.length / 4) (post.take (4 * (post.length / 4)))).map (rd c.en), ?_⟩
  unfold ReadRef.read at e2
  rw [hB] at e3
  simp only [List.length_append, hlw, List.length_nil, List.nil_append, List.append_assoc, Nat.zero_add, hHl, hff, hB] at e1 e2 e3 e4 hl ⊢
  unfold GnuHashTable.parse
  simp only [e1, Res.bind_eq, Res.ok_bind, hf.1, hf.2.1, hf.2.2.1, hf.2.2.2, e2, e3]
  simp only [List.length_append, hlw, hHl, hff, hB]
  rw [if_neg (by omega)]
  have hcount : (16 + (t.bloomCount * c.w + (4 * t.bucketCount + (4 * vs.length + post.length))) - (16 + t.bloomCount * c.w + 4 * t.bucketCount)) / 4 =
      vs.length + post.length / 4 := by omega
  rw [hcount, Nat.add_assoc 16, e4]
  simp only [Res.ok_bind, List.map_append]
  rw [map_rd_wr c.en 4 B (fun x hx => hB32 x hx), map_rd_wr c.en 4 vs (fun x hx => hv32 x hx)]

/-- C18: a GNU hash table written by the encoder, for symbols `base..base + count` sorted by bucket, is read back
(whatever follows it); the number of symbols is recovered; and a lookup (with the hash of the name, so that every symbol of
that name was entered under that hash) returns exactly the first symbol with that name and a matching version, or none
iff there is none.  The bloom filter never hides a symbol that is present. -/
theorem C18_gnu_lookup (c : Cfg) (t : WGnuHash) (hash : Nat → Nat) (tl : List UInt8) (hbc : 0 < t.bucketCount) (hb : t.bucketCount < U32)
    (hbl : 0 < t.bloomCount) (hbl' : t.bloomCount < U32) (hsh : t.bloomShift < 32) (hbase : 1 ≤ t.symbolBase) (hba : t.symbolBase < U32)
    (hU : t.symbolBase + t.symbolCount ≤ U32) (hh : ∀ i, i < t.symbolCount → hash i < U32)
    (hsorted : SortedByBucket t.bucketCount t.symbolCount hash) :
    ∃ bytes, gnuHashTable c t hash = .ok bytes ∧ ((bytes ++ tl).length < U64 →
      ∃ r, GnuHashTable.parse c (bytes ++ tl) = .ok r ∧
        (0 < t.symbolCount → t.symbolBase + t.symbolCount < U32 → r.symbolTableLength = some (t.symbolBase + t.symbolCount)) ∧
        ∀ (S : SymTab) (versions : VersionTable) (data name : List UInt8) (version : Option Version) (h : Nat),
          (∀ i s, i < t.symbolCount → Hit S versions data name version (t.symbolBase + i) s → hash i = h) →
          (∀ j s, r.find c data name h version S versions = .ok (some (j, s)) ↔
            ∃ i, j = t.symbolBase + i ∧ i < t.symbolCount ∧ Hit S versions data name version j s ∧
              ∀ k s', k < i → ¬ Hit S versions data name version (t.symbolBase + k) s') ∧
          (r.find c data name h version S versions = .ok none ↔
            ∀ i s, i < t.symbolCount → ¬ Hit S versions data name version (t.symbolBase + i) s)) := by
  have hw0 : 0 < c.w := by unfold Cfg.w; split <;> omega
  obtain ⟨hfl, hffit, -, hfbits⟩ := bloom_spec (8 * c.w) t.bloomCount t.bloomShift hash hbl (by omega) (List.range t.symbolCount)
    (List.replicate t.bloomCount 0) (by simp) (fun f hf => by rw [(List.mem_replicate.1 hf).2]; exact Nat.two_pow_pos _)
  obtain ⟨B, hB, hBl, hBspec⟩ := gnuBuckets_spec t.bucketCount t.symbolBase t.symbolCount hash hbc hsorted hU t.symbolCount 0 0 (by omega)
    (by omega) (fun _ _ _ => by omega)
  have hvals : ∀ i, i < t.symbolCount → _ := fun i hi => gnuValue_bits t.bucketCount t.symbolCount hash i (hh i hi)
  unfold gnuHashTable
  rw [if_neg (by omega)]
  rw [← List.range_eq_range'] at hB
  simp only [hB, Res.bind_eq, Res.ok_bind]
  generalize hfs : (List.range t.symbolCount).foldl (bloomStep (8 * c.w) t.bloomCount t.bloomShift hash) (List.replicate t.bloomCount 0) = fs at *
  refine ⟨_, rfl, fun hl => ?_⟩
  have hB32 : ∀ x ∈ B, x < U32 := by
    intro x hx
    obtain ⟨b, hb', rfl⟩ := List.getElem_of_mem hx
    rcases hBspec b (by omega) (by omega) with ⟨k, -, k2, -, -, k5⟩ | ⟨-, k2⟩
    · rw [Nat.sub_zero, List.getElem?_eq_getElem hb'] at k5
      rw [Option.some.inj k5]; omega
    · rw [Nat.sub_zero, List.getElem?_eq_getElem hb'] at k2
      rw [Option.some.inj k2]; decide
  have hv32 : ∀ x ∈ (List.range t.symbolCount).map (gnuValue t.bucketCount t.symbolCount hash), x < U32 := by
    intro x hx
    obtain ⟨i, hi, rfl⟩ := List.mem_map.1 hx
    exact (hvals i (List.mem_range.1 hi)).2.1
  obtain ⟨extra, hparse⟩ := gnu_parse c t fs B tl hfl (by omega) _ hb hbl' (by omega) hba hB32 hv32 hl
  refine ⟨_, hparse, ?_, ?_⟩
  · -- number of symbols
    intro hcnt hUlt
    obtain ⟨k, -, k2, k3, k4, k5⟩ : ∃ k, 0 ≤ k ∧ k < t.symbolCount ∧ hash k % t.bucketCount = hash (t.symbolCount - 1) % t.bucketCount ∧
        (∀ m, 0 ≤ m → m < k → hash m % t.bucketCount ≠ hash (t.symbolCount - 1) % t.bucketCount) ∧
        B[hash (t.symbolCount - 1) % t.bucketCount]? = some (t.symbolBase + k) := by
      rcases hBspec (hash (t.symbolCount - 1) % t.bucketCount) (by omega) (Nat.mod_lt _ hbc) with h | ⟨h, -⟩
      · simpa using h
      · exact absurd rfl (h (t.symbolCount - 1) (by omega) (by omega))
    have hmax : B.max? = some (t.symbolBase + k) := by
      rw [List.max?_eq_some_iff]
      refine ⟨List.mem_of_getElem? k5, fun x hx => ?_⟩
      obtain ⟨b, hb', rfl⟩ := List.getElem_of_mem hx
      rcases hBspec b (by omega) (by omega) with ⟨k', -, m2, m3, m4, m5⟩ | ⟨-, m2⟩
      · rw [Nat.sub_zero, List.getElem?_eq_getElem hb'] at m5
        rw [Option.some.inj m5]
        -- the first of a bucket is not after the first of the last bucket
        by_cases hle : k' ≤ k
        · omega
        · exfalso
          have h1 := hsorted k k' (by omega) m2
          have h2 := hsorted k' (t.symbolCount - 1) (by omega) (by omega)
          exact m4 k (by omega) (by omega) (by omega)
      · rw [Nat.sub_zero, List.getElem?_eq_getElem hb'] at m2
        rw [Option.some.inj m2]; omega
    unfold GnuHashTable.symbolTableLength
    simp only
    rw [if_neg (by omega), hmax]
    simp only
    rw [if_neg (by omega), if_neg (by simp; omega)]
    have hget : ∀ m, k + m < t.symbolCount →
        (((List.range t.symbolCount).map (gnuValue t.bucketCount t.symbolCount hash) ++ extra).drop (t.symbolBase + k - t.symbolBase))[m]? =
          some (gnuValue t.bucketCount t.symbolCount hash (k + m)) := by
      intro m hm
      rw [List.getElem?_drop, List.getElem?_append_left (by simp; omega)]
      rw [show t.symbolBase + k - t.symbolBase + m = k + m by omega]
      simp [hm]
    have := gnuLength_eq (t.symbolBase + k) _ 0 (t.symbolCount - 1 - k) (fun m hm => ⟨_, hget m (by omega), ?_⟩)
      ⟨_, hget (t.symbolCount - 1 - k) (by omega), ?_⟩ (by omega)
    · rw [this]; congr 1; omega
    · have hb3 := (hvals (k + m) (by omega)).2.2
      have h1 := hsorted k (k + m) (by omega) (by omega)
      have h2 := hsorted (k + m) (t.symbolCount - 1) (by omega) (by omega)
      have h3 := hsorted k (k + m + 1) (by omega) (by omega)
      have h4 := hsorted (k + m + 1) (t.symbolCount - 1) (by omega) (by omega)
      by_cases hz : gnuValue t.bucketCount t.symbolCount hash (k + m) &&& 1 = 0
      · exact hz
      · rcases hb3.1 hz with h | h <;> omega
    · exact (hvals _ (by omega)).2.2.2 (.inl (by omega))
  · -- lookups
    intro S versions data name version h hhit
    have hiff : ∀ j s, GnuHashTable.find c ⟨t.symbolBase, t.bloomShift, fs.flatMap (wr c.en c.w), B,
          (List.range t.symbolCount).map (gnuValue t.bucketCount t.symbolCount hash) ++ extra⟩ data name h version S versions = .ok (some (j, s)) ↔
        ∃ i, j = t.symbolBase + i ∧ i < t.symbolCount ∧ Hit S versions data name version j s ∧
          ∀ k s', k < i → ¬ Hit S versions data name version (t.symbolBase + k) s' := by
      intro j s
      unfold GnuHashTable.find
      have hbc' : (fs.flatMap (wr c.en c.w)).length / c.w = t.bloomCount := by
        rw [length_flatMap_const (wr c.en c.w) c.w fs (by simp), hfl, Nat.mul_div_cancel _ hw0]
      simp only [hbc']
      rw [if_neg (by omega), Nat.mod_eq_of_lt hbl']
      have hk : (h / (8 * c.w)) &&& (t.bloomCount - 1) < fs.length := by
        have := Nat.and_le_right (n := h / (8 * c.w)) (m := t.bloomCount - 1); omega
      have hf := List.getElem?_eq_getElem hk
      generalize hff : fs[(h / (8 * c.w)) &&& (t.bloomCount - 1)] = f at hf
      rw [readBytesAt_flatMap (wr c.en c.w) c.w hw0 fs (by simp) _ f hf]
      have hrd : rd c.en (wr c.en c.w f) = f := by
        apply rd_wr
        have := hffit f (List.mem_of_getElem? hf)
        rw [Nat.pow_mul] at this; exact this
      simp only [hrd, and_bit_eq_zero]
      have hm : h % B.length < B.length := Nat.mod_lt _ (by omega)
      constructor
      · intro he
        split at he
        · simp at he
        rw [if_neg (by omega)] at he
        split at he
        · simp at he
        split at he
        · simp at he
        have hBl' : B.length = t.bucketCount := by omega
        rw [hBl'] at he
        have hbm : h % t.bucketCount < t.bucketCount := Nat.mod_lt _ hbc
        rcases hBspec (h % t.bucketCount) (by omega) hbm with ⟨p, -, p2, p3, p4, p5⟩ | ⟨-, p2⟩
        · rw [Nat.sub_zero] at p5
          rw [p5] at he
          simp only at he
          rw [if_neg (by omega)] at he
          split at he
          · simp at he
          rw [if_neg (by omega), if_neg (by simp; omega)] at he
          obtain ⟨i, v, hj, hsi, hvi, hv1, hn, hmin⟩ := (gnuLoop_iff ..).1 (Res.ok.inj he)
          rw [List.getElem?_drop] at hsi hvi
          rw [← hj] at hsi
          have hhj := (nameMatches_iff S versions data name version j s (by omega) hsi).1 hn
          have hpi : p + i < t.symbolCount := by
            by_cases hlt : p + i < t.symbolCount
            · exact hlt
            · exfalso
              have hs0 : (S.symbols.drop (t.symbolBase + p))[t.symbolCount - 1 - p]? ≠ none := by
                rw [List.getElem?_drop]
                have : j < S.symbols.length := (List.getElem?_eq_some_iff.1 hsi).1
                rw [List.getElem?_eq_getElem (by omega)]; simp
              obtain ⟨s', hs'⟩ := Option.ne_none_iff_exists'.1 hs0
              have hv' : (((List.range t.symbolCount).map (gnuValue t.bucketCount t.symbolCount hash) ++ extra).drop
                  (t.symbolBase + p - t.symbolBase))[t.symbolCount - 1 - p]? = some (gnuValue t.bucketCount t.symbolCount hash (t.symbolCount - 1)) := by
                rw [List.getElem?_drop, List.getElem?_append_left (by simp; omega)]
                rw [show t.symbolBase + p - t.symbolBase + (t.symbolCount - 1 - p) = t.symbolCount - 1 by omega]
                simp [show t.symbolCount - 1 < t.symbolCount by omega]
              have := (hmin (t.symbolCount - 1 - p) s' _ (by omega) hs' hv').1
              exact (hvals (t.symbolCount - 1) (by omega)).2.2.2 (.inl rfl) this
          refine ⟨p + i, by omega, hpi, hhj, ?_⟩
          intro k s' hk hkh
          have hhk := hhit k s' (by omega) hkh
          have hpk : p ≤ k := by
            by_cases hpk : p ≤ k
            · exact hpk
            · exact absurd (by rw [hhk]) (p4 k (by omega) (by omega))
          have hv' : (((List.range t.symbolCount).map (gnuValue t.bucketCount t.symbolCount hash) ++ extra).drop
                  (t.symbolBase + p - t.symbolBase))[k - p]? = some (gnuValue t.bucketCount t.symbolCount hash k) := by
            rw [List.getElem?_drop, List.getElem?_append_left (by simp; omega)]
            rw [show t.symbolBase + p - t.symbolBase + (k - p) = k by omega]
            simp [show k < t.symbolCount by omega]
          have hs' : (S.symbols.drop (t.symbolBase + p))[k - p]? = some s' := by
            rw [List.getElem?_drop, show t.symbolBase + p + (k - p) = t.symbolBase + k by omega]; exact hkh.2.1
          refine (hmin (k - p) s' _ (by omega) hs' hv').2 ⟨?_, ?_⟩
          · rw [(hvals k (by omega)).1, hhk]
          · rw [show t.symbolBase + p + (k - p) = t.symbolBase + k by omega]
            exact (nameMatches_iff S versions data name version _ s' hkh.1 hkh.2.1).2 hkh
        · rw [Nat.sub_zero] at p2
          rw [p2] at he
          simp at he
      · rintro ⟨i, rfl, hi, hhi, hmin⟩
        have hhi' := hhit i s hi hhi
        obtain ⟨b1, b2⟩ := hfbits i (List.mem_range.2 hi) f (by rw [hhi']; exact hf)
        rw [hhi'] at b1 b2
        rw [if_neg (by rw [b1]; simp), if_neg (by omega), if_neg (by rw [b2]; simp), if_neg (by omega)]
        have hBl' : B.length = t.bucketCount := by omega
        rw [hBl']
        have hbm : h % t.bucketCount < t.bucketCount := Nat.mod_lt _ hbc
        rcases hBspec (h % t.bucketCount) (by omega) hbm with ⟨p, -, p2, p3, p4, p5⟩ | ⟨p1, -⟩
        · rw [Nat.sub_zero] at p5
          rw [p5]
          simp only
          have hpi : p ≤ i := by
            by_cases hpi : p ≤ i
            · exact hpi
            · exact absurd (by rw [hhi']) (p4 i (by omega) (by omega))
          have hsl : t.symbolBase + i < S.symbols.length := (List.getElem?_eq_some_iff.1 hhi.2.1).1
          rw [if_neg (by omega), if_neg (by omega), if_neg (by omega), if_neg (by simp; omega)]
          rw [Res.ok.injEq, gnuLoop_iff]
          have hv : ∀ m, p + m < t.symbolCount → (((List.range t.symbolCount).map (gnuValue t.bucketCount t.symbolCount hash) ++ extra).drop
                  (t.symbolBase + p - t.symbolBase))[m]? = some (gnuValue t.bucketCount t.symbolCount hash (p + m)) := by
            intro m hm'
            rw [List.getElem?_drop, List.getElem?_append_left (by simp; omega)]
            rw [show t.symbolBase + p - t.symbolBase + m = p + m by omega]
            simp [hm']
          refine ⟨i - p, _, by omega, ?_, hv (i - p) (by omega), ?_, ?_, ?_⟩
          · rw [List.getElem?_drop, show t.symbolBase + p + (i - p) = t.symbolBase + i by omega]; exact hhi.2.1
          · rw [show p + (i - p) = i by omega, (hvals i hi).1, hhi']
          · exact (nameMatches_iff S versions data name version _ s hhi.1 hhi.2.1).2 hhi
          · intro m s' v' hm' hs' hv'
            rw [hv m (by omega)] at hv'
            cases hv'
            constructor
            · have h1 := hsorted p (p + m) (by omega) (by omega)
              have h2 := hsorted (p + m) i (by omega) (by omega)
              have h3 := hsorted p (p + m + 1) (by omega) (by omega)
              have h4 := hsorted (p + m + 1) i (by omega) (by omega)
              rw [hhi'] at h2 h4
              by_cases hz : gnuValue t.bucketCount t.symbolCount hash (p + m) &&& 1 = 0
              · exact hz
              · rcases (hvals (p + m) (by omega)).2.2.1 hz with h | h <;> omega
            · rintro ⟨-, hn⟩
              rw [List.getElem?_drop] at hs'
              have := (nameMatches_iff S versions data name version _ s' (by omega) hs').1 hn
              exact hmin (p + m) s' (by omega) (by rw [show t.symbolBase + (p + m) = t.symbolBase + p + m by omega]; exact this)
        · exact absurd (by rw [hhi']) (p1 i (by omega) hi)
    refine ⟨hiff, ?_⟩
    constructor
    · intro hn i s hi hhi
      -- the first hit would have been found
      have hfirst : ∀ n, ∀ i s, i ≤ n → i < t.symbolCount → Hit S versions data name version (t.symbolBase + i) s →
          ∃ i' s', i' < t.symbolCount ∧ Hit S versions data name version (t.symbolBase + i') s' ∧
            ∀ k s'', k < i' → ¬ Hit S versions data name version (t.symbolBase + k) s'' := by
        intro n
        induction n with
        | zero =>
          intro i s h0 hi hhi
          exact ⟨i, s, hi, hhi, fun k _ hk => by omega⟩
        | succ n ih =>
          intro i s h0 hi hhi
          by_cases hex : ∃ k s'', k < i ∧ Hit S versions data name version (t.symbolBase + k) s''
          · obtain ⟨k, s'', hk, hkh⟩ := hex
            exact ih k s'' (by omega) (by omega) hkh
          · exact ⟨i, s, hi, hhi, fun k s'' hk hkh => hex ⟨k, s'', hk, hkh⟩⟩
      obtain ⟨i', s', a, b, d⟩ := hfirst i i s (Nat.le_refl _) hi hhi
      have := (hiff (t.symbolBase + i') s').2 ⟨i', rfl, a, b, d⟩
      rw [hn] at this; simp at this
    · intro hno
      obtain ⟨r, hr⟩ := gnu_find_ok c ⟨t.symbolBase, t.bloomShift, fs.flatMap (wr c.en c.w), B,
          (List.range t.symbolCount).map (gnuValue t.bucketCount t.symbolCount hash) ++ extra⟩ hsh data name h version S versions
      rw [hr]
      cases r with
      | none => rfl
      | some p =>
        obtain ⟨j, s⟩ := p
        obtain ⟨i, rfl, hi, hhi, -⟩ := (hiff j s).1 hr
        exact absurd hhi (hno i s hi)

/-! ## C19: arbitrary tables -/

private theorem sysv_sound (t : HashTable) (S : SymTab) (versions : VersionTable) (data name : List UInt8) (version : Option Version)
    (fuel index j : Nat) (s : Sym) (h : t.findLoop data name version S versions fuel index = some (j, s)) :
    Hit S versions data name version j s := by
  induction fuel generalizing index with
  | zero => simp [HashTable.findLoop] at h
  | succ fuel ih =>
    unfold HashTable.findLoop at h
    split at h
    · simp at h
    rename_i hi0
    simp only at h
    have hnext : (match t.chains[index]? with
        | none => none
        | some n => t.findLoop data name version S versions fuel n) = some (j, s) → Hit S versions data name version j s := by
      intro h
      split at h
      · simp at h
      · exact ih _ h
    unfold SymTab.symbol at h
    rw [if_neg hi0] at h
    cases hs : S.symbols[index]? with
    | none => rw [hs] at h; exact hnext h
    | some s0 =>
      rw [hs] at h
      simp only at h
      split at h
      · rename_i hn
        simp only [Option.some.injEq, Prod.mk.injEq] at h
        obtain ⟨rfl, rfl⟩ := h
        exact (nameMatches_iff S versions data name version index s0 (by omega) hs).1 hn
      · exact hnext h

private theorem readSlice_np' (d : List UInt8) (o a b : Nat) : (ReadRef.readSlice d o a b).1 ≠ .panic := by
  unfold ReadRef.readSlice
  split
  · simp
  · have := Archive.readBytes_no_panic d o (b * a)
    cases h : ReadRef.readBytes d o (b * a) with
    | mk r o' => rw [h] at this; cases r <;> simp_all

/-- C19: parsing any bytes as a SysV table does not panic; and for any table, whatever its contents (chains may be
cyclic or point outside the symbol table), a lookup ends (it follows at most as many links as there are chain entries, the
fuel of the model) and what it returns is a symbol of the given name with a matching version, at the returned index. -/
theorem C19_sysv_any_table (en : Endianness) (bytes : List UInt8) :
    HashTable.parse en bytes ≠ .panic ∧
    ∀ t, HashTable.parse en bytes = .ok t →
      ∀ (S : SymTab) (versions : VersionTable) (data name : List UInt8) (version : Option Version) (h j : Nat) (s : Sym),
        t.find data name h version S versions = some (j, s) → Hit S versions data name version j s := by
  constructor
  · unfold HashTable.parse ReadRef.read
    have h1 := Archive.readBytes_no_panic bytes 0 8
    cases hr : (ReadRef.readBytes bytes 0 8).1 with
    | panic => exact absurd hr h1
    | err => simp [hr]
    | ok x =>
      simp only [hr, Res.bind_eq, Res.ok_bind]
      have h2 := readSlice_np' bytes (ReadRef.readBytes bytes 0 8).2 4 (field en x 0 4)
      cases hr2 : (ReadRef.readSlice bytes (ReadRef.readBytes bytes 0 8).2 4 (field en x 0 4)).1 with
      | panic => exact absurd hr2 h2
      | err => simp
      | ok y =>
        simp only [Res.ok_bind]
        have h3 := readSlice_np' bytes (ReadRef.readSlice bytes (ReadRef.readBytes bytes 0 8).2 4 (field en x 0 4)).2 4 (field en x 4 4)
        cases hr3 : (ReadRef.readSlice bytes (ReadRef.readSlice bytes (ReadRef.readBytes bytes 0 8).2 4 (field en x 0 4)).2 4 (field en x 4 4)).1 with
        | panic => exact absurd hr3 h3
        | err => simp
        | ok z => simp
  · intro t _ S versions data name version h j s hf
    unfold HashTable.find at hf
    split at hf
    · simp at hf
    · split at hf
      · simp at hf
      · exact sysv_sound t S versions data name version _ _ j s hf

/-- C19: for any GNU table, whatever its contents, a lookup returns only symbols of the given name with a matching version,
whose recorded hash agrees with the given one (except in the lowest bit); it does not panic if the bloom shift is less than
32.  With a larger shift in the table it can panic (in builds with overflow checks), see the last conjunct. -/
theorem C19_gnu_any_table (c : Cfg) (t : GnuHashTable) (S : SymTab) (versions : VersionTable) (data name : List UInt8)
    (version : Option Version) (h : Nat) :
    (∀ j s, 1 ≤ t.symbolBase → t.find c data name h version S versions = .ok (some (j, s)) →
      Hit S versions data name version j s ∧ t.symbolBase ≤ j ∧
        ∃ v, t.values[j - t.symbolBase]? = some v ∧ v ||| 1 = h ||| 1) ∧
    (t.bloomShift < 32 → ∃ r, t.find c data name h version S versions = .ok r) ∧
    (∃ (t : GnuHashTable), t.find ⟨false, .little⟩ data name 0 version S versions = .panic) := by
  refine ⟨?_, fun hs => gnu_find_ok c t hs data name h version S versions, ?_⟩
  · intro j s hb hf
    unfold GnuHashTable.find at hf
    simp only at hf
    split at hf
    · simp at hf
    split at hf
    · split at hf
      · simp at hf
      split at hf
      · simp at hf
      split at hf
      · simp at hf
      split at hf
      · simp at hf
      split at hf
      · simp at hf
      rename_i index hi
      split at hf
      · simp at hf
      split at hf
      · simp at hf
      split at hf
      · simp at hf
      split at hf
      · simp at hf
      obtain ⟨i, v, rfl, hsi, hvi, hv1, hn, -⟩ := (gnuLoop_iff ..).1 (Res.ok.inj hf)
      rw [List.getElem?_drop] at hsi hvi
      refine ⟨(nameMatches_iff S versions data name version _ s (by omega) hsi).1 hn, by omega, v, ?_, hv1⟩
      rw [show index + i - t.symbolBase = index - t.symbolBase + i by omega]; exact hvi
    · simp at hf
    · simp at hf
  · refine ⟨⟨1, 32, [1, 0, 0, 0], [1], [1]⟩, ?_⟩
    rfl

private theorem readBytes_offset {d : List UInt8} {off n : Nat} {b : List UInt8} (hl : d.length < U64) (ho : off ≤ d.length)
    (h : (ReadRef.readBytes d off n).1 = .ok b) : (ReadRef.readBytes d off n).2 ≤ d.length := by
  unfold ReadRef.readBytes at h ⊢
  rw [readRef_readBytesAt_eq] at h ⊢
  by_cases hc : n = 0 ∨ off + n ≤ d.length
  · rw [if_pos hc] at h ⊢
    simp only
    rw [Nat.mod_eq_of_lt (by omega)]; omega
  · rw [if_neg hc] at h; simp at h

/-- C19: parsing any bytes as a GNU hash table does not panic. -/
theorem C19_gnu_parse_no_panic (c : Cfg) (data : List UInt8) (hl : data.length < U64) : GnuHashTable.parse c data ≠ .panic := by
  unfold GnuHashTable.parse ReadRef.read
  have h1 := Archive.readBytes_no_panic data 0 16
  cases hr : (ReadRef.readBytes data 0 16).1 with
  | panic => exact absurd hr h1
  | err => simp [hr]
  | ok x =>
    simp only [hr, Res.bind_eq, Res.ok_bind]
    have ho1 := readBytes_offset hl (by omega) hr
    generalize (ReadRef.readBytes data 0 16).2 = o1 at *
    have h2 := Archive.readBytes_no_panic data o1 (field c.en x 8 4 * c.w)
    cases hr2 : (ReadRef.readBytes data o1 (field c.en x 8 4 * c.w)).1 with
    | panic => exact absurd hr2 h2
    | err => simp
    | ok y =>
      simp only [Res.ok_bind]
      have ho2 := readBytes_offset hl ho1 hr2
      generalize (ReadRef.readBytes data o1 (field c.en x 8 4 * c.w)).2 = o2 at *
      have h3 := readSlice_np' data o2 4 (field c.en x 0 4)
      cases hr3 : (ReadRef.readSlice data o2 4 (field c.en x 0 4)).1 with
      | panic => exact absurd hr3 h3
      | err => simp
      | ok z =>
        simp only [Res.ok_bind]
        have o3 : (ReadRef.readSlice data o2 4 (field c.en x 0 4)).2 ≤ data.length := by
          unfold ReadRef.readSlice at hr3 ⊢
          split at hr3
          · simp at hr3
          · rename_i hneg
            rw [if_neg hneg]
            cases hq : ReadRef.readBytes data o2 (field c.en x 0 4 * 4) with
            | mk q o' =>
              rw [hq] at hr3
              cases q with
              | ok b =>
                have := readBytes_offset (n := field c.en x 0 4 * 4) (b := b) hl ho2 (by rw [hq])
                rw [hq] at this; exact this
              | err => simp at hr3
              | panic => simp at hr3
        rw [if_neg (by omega)]
        have h4 := readSlice_np' data (ReadRef.readSlice data o2 4 (field c.en x 0 4)).2 4
          ((data.length - (ReadRef.readSlice data o2 4 (field c.en x 0 4)).2) / 4)
        cases hr4 : (ReadRef.readSlice data (ReadRef.readSlice data o2 4 (field c.en x 0 4)).2 4
          ((data.length - (ReadRef.readSlice data o2 4 (field c.en x 0 4)).2) / 4)).1 with
        | panic => exact absurd hr4 h4
        | err => simp
        | ok _ => simp

/-! ## Non-vacuity: two symbols `a` and `b` (and the null symbol), a SysV table of one bucket and a GNU table of two. -/

private def exSym (name : Nat) : Sym := ⟨name, 0x12, 0, 1, 0, 0⟩
private def exData : List UInt8 := [0, 97, 0, 98, 0]
private def exTab : SymTab := ⟨0, 0, 0, [exSym 0, exSym 1, exSym 3], some (0, 5), []⟩
private def exVers : VersionTable := ⟨[], []⟩

example : Hit exTab exVers exData [98] none 2 (exSym 3) ∧ ¬ Hit exTab exVers exData [98] none 1 (exSym 1) := by
  unfold Hit; decide

example : ∃ bytes t, hashTable .little 1 3 (fun i => if i = 0 then none else some (sysvHash (if i = 1 then [97] else [98]))) = .ok bytes ∧
    HashTable.parse .little bytes = .ok t ∧ t.find exData [97] (sysvHash [97]) none exTab exVers = some (1, exSym 1) ∧
    t.find exData [98] (sysvHash [98]) none exTab exVers = some (2, exSym 3) ∧
    t.find exData [99] (sysvHash [99]) none exTab exVers = none := by
  refine ⟨_, ⟨[2], [0, 0, 1]⟩, rfl, ?_⟩; decide +kernel

example : SortedByBucket 2 2 (fun i => if i = 0 then gnuHash [97] else gnuHash [98]) := by
  intro i j hij hj
  have : (i = 0 ∨ i = 1) ∧ (j = 0 ∨ j = 1) := by omega
  rcases this with ⟨rfl | rfl, rfl | rfl⟩ <;> first | omega | decide

private def exGnu : Res GnuHashTable :=
  (gnuHashTable ⟨true, .big⟩ ⟨2, 1, 6, 1, 2⟩ (fun i => if i = 0 then gnuHash [97] else gnuHash [98])).bind (GnuHashTable.parse ⟨true, .big⟩)

example : (exGnu.bind fun t => t.find ⟨true, .big⟩ exData [97] (gnuHash [97]) none exTab exVers) = .ok (some (1, exSym 1)) ∧
    (exGnu.bind fun t => t.find ⟨true, .big⟩ exData [98] (gnuHash [98]) none exTab exVers) = .ok (some (2, exSym 3)) ∧
    (exGnu.bind fun t => t.find ⟨true, .big⟩ exData [99] (gnuHash [99]) none exTab exVers) = .ok none ∧
    (exGnu.bind fun t => .ok t.symbolTableLength) = .ok (some 3) := by
  decide +kernel

end Obj.Props
