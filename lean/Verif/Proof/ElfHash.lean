import Verif.Spec.ElfHash
import Verif.Proof.Elf
import Verif.Proof.Archive

/-! # Lemmas about ELF hash tables -/

namespace Obj.Elf
open Obj Obj.Spec.ElfHashS

theorem length_words (en : Endianness) (ws : List Nat) : (words en ws).length = 4 * ws.length := by
  unfold words
  rw [length_flatMap_const (wr en 4) 4 ws (by simp)]; omega

theorem map_rd_wr (en : Endianness) (w : Nat) (ws : List Nat) (h : ∀ x ∈ ws, x < 256 ^ w) :
    (ws.map (wr en w)).map (rd en) = ws := by
  rw [List.map_map]
  conv => rhs; rw [← List.map_id ws]
  exact List.map_congr_left fun x hx => rd_wr en w x (h x hx)

theorem chunks_append (size a b : Nat) (x y : List UInt8) (h : x.length = a * size) :
    Bytes.chunks size (a + b) (x ++ y) = Bytes.chunks size a x ++ Bytes.chunks size b y := by
  induction a generalizing x with
  | zero =>
    have : x = [] := List.length_eq_zero_iff.1 (by omega)
    subst this; simp [Bytes.chunks]
  | succ a ih =>
    rw [Nat.add_mul, Nat.one_mul] at h
    have e : a + 1 + b = (a + b) + 1 := by omega
    rw [e]
    simp only [Bytes.chunks, List.cons_append]
    rw [List.take_append_of_le_length (by omega), List.drop_append_of_le_length (by omega), ih _ (by simp; omega)]

theorem readSlice_words (en : Endianness) (pre ws) (post : List UInt8) (hl : (pre ++ (words en ws ++ post)).length < U64) :
    ReadRef.readSlice (pre ++ (words en ws ++ post)) pre.length 4 ws.length =
      (.ok (ws.map (wr en 4)), pre.length + 4 * ws.length) := by
  have hw := length_words en ws
  simp only [List.length_append] at hl
  unfold ReadRef.readSlice
  rw [if_neg (by omega)]
  have := Obj.Archive.read_at_append (pre := pre) (b := words en ws) (post := post) (n := ws.length * 4) (by omega) (by simp; omega)
  unfold ReadRef.read at this
  rw [this]
  dsimp only
  have h2 := chunks_flatMap (wr en 4) 4 ws (by simp) []
  rw [List.append_nil] at h2
  unfold words
  rw [h2, Nat.mul_comm]


/-! ## Candidates -/

theorem nameMatches_iff (S : SymTab) (versions : VersionTable) (data name : List UInt8) (version : Option Version) (j : Nat) (s : Sym)
    (hj : 1 ≤ j) (hs : S.symbols[j]? = some s) :
    nameMatches data name version S versions j s = true ↔ Hit S versions data name version j s := by
  unfold nameMatches Hit SymTab.symbolName
  simp [hj, hs]

theorem hit_unique {S : SymTab} {versions : VersionTable} {data name : List UInt8} {version : Option Version} {j : Nat} {s s' : Sym}
    (h : Hit S versions data name version j s) (h' : Hit S versions data name version j s') : s = s' := by
  have := h.2.1; rw [h'.2.1] at this; exact (Option.some.inj this).symm

/-! ## SysV -/

/-- The greatest index below `i` in bucket `b`, or 0. -/
def prevIn (bc : Nat) (hashOf : Nat → Option Nat) (b : Nat) : Nat → Nat
  | 0 => 0
  | i + 1 => match hashOf i with
    | some h => if h % bc = b then i else prevIn bc hashOf b i
    | none => prevIn bc hashOf b i

/-- The chain entry of symbol `i`. -/
def chainOf (bc : Nat) (hashOf : Nat → Option Nat) (i : Nat) : Nat :=
  match hashOf i with
  | some h => prevIn bc hashOf (h % bc) i
  | none => 0

theorem prevIn_lt (bc : Nat) (hashOf : Nat → Option Nat) (b i N : Nat) (hi : i ≤ N) (hN : 0 < N) : prevIn bc hashOf b i < N := by
  induction i with
  | zero => exact hN
  | succ i ih =>
    unfold prevIn
    split
    · split
      · omega
      · exact ih (by omega)
    · exact ih (by omega)

theorem chainOf_lt (bc : Nat) (hashOf : Nat → Option Nat) (i N : Nat) (hi : i ≤ N) (hN : 0 < N) : chainOf bc hashOf i < N := by
  unfold chainOf
  split
  · exact prevIn_lt _ _ _ _ _ hi hN
  · exact hN

theorem hash_fold (bc cc : Nat) (hashOf : Nat → Option Nat) (hbc : 0 < bc) (n : Nat) (hn : n ≤ cc) :
    (List.range n).foldl (hashStep bc hashOf) (List.replicate bc 0, List.replicate cc 0) =
      ((List.range bc).map (fun b => prevIn bc hashOf b n),
        (List.range cc).map (fun i => if i < n then chainOf bc hashOf i else 0)) := by
  induction n with
  | zero =>
    simp only [List.range_zero, List.foldl_nil, prevIn, Nat.not_lt_zero, if_false]
    congr 1 <;> (apply List.ext_getElem?; intro i; simp [List.getElem?_replicate, List.getElem?_range]) <;>
      (by_cases h : i < bc <;> by_cases h' : i < cc <;> simp_all [List.getElem?_eq_none])
  | succ n ih =>
    rw [List.range_succ, List.foldl_append, ih (by omega)]
    simp only [List.foldl_cons, List.foldl_nil]
    unfold hashStep
    cases hh : hashOf n with
    | none =>
      simp only
      congr 1
      · apply List.map_congr_left; intro b hb; simp [prevIn, hh]
      · apply List.map_congr_left; intro i hi
        by_cases h : i < n
        · rw [if_pos h, if_pos (by omega)]
        · rw [if_neg h]
          by_cases h2 : i < n + 1
          · have : i = n := by omega
            subst this; rw [if_pos h2]; simp [chainOf, hh]
          · rw [if_neg h2]
    | some h =>
      have hb : h % bc < bc := Nat.mod_lt _ hbc
      simp only
      congr 1
      · apply List.ext_getElem?; intro i
        rw [List.getElem?_set]
        simp only [List.length_map, List.length_range]
        by_cases hi : h % bc = i
        · subst hi
          simp [hb, prevIn, hh, List.getElem?_range]
        · rw [if_neg hi]
          by_cases hib : i < bc
          · simp [List.getElem?_range, hib, prevIn, hh, hi]
          · rw [List.getElem?_eq_none (by simp; omega), List.getElem?_eq_none (by simp; omega)]
      · apply List.ext_getElem?; intro i
        rw [List.getElem?_set]
        simp only [List.length_map, List.length_range]
        by_cases hi : n = i
        · subst hi
          rw [if_pos rfl, if_pos (by omega)]
          simp [List.getElem?_range, hb, show n < cc by omega, chainOf, hh]
        · rw [if_neg hi]
          by_cases hib : i < cc
          · by_cases hin : i < n
            · simp [List.getElem?_range, hib, hin, show i < n + 1 by omega]
            · simp [List.getElem?_range, hib, hin, show ¬ i < n + 1 by omega]
          · rw [List.getElem?_eq_none (by simp; omega), List.getElem?_eq_none (by simp; omega)]

theorem findLoop_iff (bc cc : Nat) (hashOf : Nat → Option Nat) (h0 : hashOf 0 = none) (t : HashTable)
    (ht : t.chains = (List.range cc).map (chainOf bc hashOf)) (S : SymTab) (versions : VersionTable) (data name : List UInt8)
    (version : Option Version) (h : Nat) (j : Nat) (s : Sym) (i fuel : Nat) (hf : i ≤ fuel) (hi : i ≤ cc) :
    t.findLoop data name version S versions fuel (prevIn bc hashOf (h % bc) i) = some (j, s) ↔
      (j < i ∧ InBucket bc cc hashOf h j ∧ Hit S versions data name version j s ∧
        ∀ k s', k < i → InBucket bc cc hashOf h k → Hit S versions data name version k s' → k ≤ j) := by
  induction i generalizing fuel with
  | zero =>
    have : t.findLoop data name version S versions fuel (prevIn bc hashOf (h % bc) 0) = none := by
      cases fuel <;> simp [HashTable.findLoop, prevIn]
    rw [this]; simp
  | succ i ih =>
    by_cases hb : InBucket bc cc hashOf h i
    · obtain ⟨-, h', hh, hm⟩ := hb
      have hi0 : i ≠ 0 := by intro he; subst he; rw [h0] at hh; simp at hh
      have hp : prevIn bc hashOf (h % bc) (i + 1) = i := by simp [prevIn, hh, hm]
      obtain ⟨f, rfl⟩ : ∃ f, fuel = f + 1 := ⟨fuel - 1, by omega⟩
      have hc : t.chains[i]? = some (prevIn bc hashOf (h % bc) i) := by
        rw [ht]; simp [List.getElem?_range, show i < cc by omega, chainOf, hh, hm]
      rw [hp]
      have hib : InBucket bc cc hashOf h i := ⟨by omega, h', hh, hm⟩
      unfold HashTable.findLoop
      rw [if_neg hi0, hc]
      simp only
      have hnext : (¬ ∃ s0, Hit S versions data name version i s0) →
          (t.findLoop data name version S versions f (prevIn bc hashOf (h % bc) i) = some (j, s) ↔
          (j < i + 1 ∧ InBucket bc cc hashOf h j ∧ Hit S versions data name version j s ∧
        ∀ k s', k < i + 1 → InBucket bc cc hashOf h k → Hit S versions data name version k s' → k ≤ j)) := by
        intro hno
        rw [ih f (by omega) (by omega)]
        constructor
        · rintro ⟨a, b, c, d⟩
          refine ⟨by omega, b, c, fun k s' hk hkb hkh => ?_⟩
          by_cases hki : k = i
          · subst hki; exact absurd ⟨_, hkh⟩ hno
          · exact d k s' (by omega) hkb hkh
        · rintro ⟨a, b, c, d⟩
          have hji : j ≠ i := by intro he; subst he; exact hno ⟨_, c⟩
          exact ⟨by omega, b, c, fun k s' hk => d k s' (by omega)⟩
      unfold SymTab.symbol
      rw [if_neg hi0]
      cases hs : S.symbols[i]? with
      | none =>
        simp only
        exact hnext (by rintro ⟨s0, hs0⟩; have := hs0.2.1; rw [hs] at this; simp at this)
      | some s0 =>
        simp only
        by_cases hn : nameMatches data name version S versions i s0 = true
        · rw [if_pos hn]
          have hhit := (nameMatches_iff S versions data name version i s0 (by omega) hs).1 hn
          constructor
          · intro he
            simp only [Option.some.injEq, Prod.mk.injEq] at he
            obtain ⟨rfl, rfl⟩ := he
            exact ⟨by omega, hib, hhit, fun k s' hk _ _ => by omega⟩
          · rintro ⟨a, b, c, d⟩
            have := d i s0 (by omega) hib hhit
            have hij : j = i := by omega
            subst hij
            rw [hit_unique c hhit]
        · rw [if_neg hn]
          apply hnext
          rintro ⟨s1, hs1⟩
          have := hs1.2.1
          rw [hs] at this
          cases this
          exact hn ((nameMatches_iff S versions data name version i s0 (by omega) hs).2 hs1)
    · have hp : prevIn bc hashOf (h % bc) (i + 1) = prevIn bc hashOf (h % bc) i := by
        cases hh : hashOf i with
        | none => simp [prevIn, hh]
        | some h' =>
          have : ¬ h' % bc = h % bc := fun hm => hb ⟨by omega, h', hh, hm⟩
          simp [prevIn, hh, this]
      rw [hp, ih fuel (by omega) (by omega)]
      constructor
      · rintro ⟨a, b, c, d⟩
        refine ⟨by omega, b, c, fun k s' hk hkb hkh => ?_⟩
        by_cases hki : k = i
        · subst hki; exact absurd hkb hb
        · exact d k s' (by omega) hkb hkh
      · rintro ⟨a, b, c, d⟩
        have hji : j ≠ i := by intro he; subst he; exact hb b
        exact ⟨by omega, b, c, fun k s' hk => d k s' (by omega)⟩

/-! ## GNU -/

theorem gnuLoop_iff (data name : List UInt8) (hash : Nat) (version : Option Version) (S : SymTab) (versions : VersionTable)
    (ss : List Sym) (vs : List Nat) (idx j : Nat) (s : Sym) :
    gnuLoop data name hash version S versions ss vs idx = some (j, s) ↔
      ∃ i v, j = idx + i ∧ ss[i]? = some s ∧ vs[i]? = some v ∧ v ||| 1 = hash ||| 1 ∧
        nameMatches data name version S versions j s = true ∧
        ∀ m s' v', m < i → ss[m]? = some s' → vs[m]? = some v' →
          v' &&& 1 = 0 ∧ ¬ (v' ||| 1 = hash ||| 1 ∧ nameMatches data name version S versions (idx + m) s' = true) := by
  induction ss generalizing vs idx with
  | nil => unfold gnuLoop; simp
  | cons s0 ss ih =>
    cases vs with
    | nil => unfold gnuLoop; simp
    | cons v0 vs =>
      unfold gnuLoop
      by_cases hc : ((v0 ||| 1 == hash ||| 1) && nameMatches data name version S versions idx s0) = true
      · rw [if_pos hc]
        simp only [Bool.and_eq_true, beq_iff_eq] at hc
        constructor
        · intro he
          simp only [Option.some.injEq, Prod.mk.injEq] at he
          obtain ⟨rfl, rfl⟩ := he
          exact ⟨0, v0, rfl, rfl, rfl, hc.1, hc.2, fun m _ _ hm => by omega⟩
        · rintro ⟨i, v, rfl, h1, h2, h3, h4, h5⟩
          cases i with
          | zero => simp at h1; simp [h1]
          | succ i => exact absurd hc (h5 0 s0 v0 (by omega) rfl rfl).2
      · rw [if_neg hc]
        simp only [Bool.and_eq_true, beq_iff_eq] at hc
        by_cases hv : v0 &&& 1 ≠ 0
        · rw [if_pos hv]
          constructor
          · simp
          · rintro ⟨i, v, rfl, h1, h2, h3, h4, h5⟩
            cases i with
            | zero =>
              simp at h1 h2
              subst h1 h2
              exact absurd ⟨h3, h4⟩ hc
            | succ i => exact absurd (h5 0 s0 v0 (by omega) rfl rfl).1 hv
        · rw [if_neg hv, ih]
          have hv' : v0 &&& 1 = 0 := by omega
          constructor
          · rintro ⟨i, v, rfl, h1, h2, h3, h4, h5⟩
            refine ⟨i + 1, v, by omega, by simpa using h1, by simpa using h2, h3, h4, ?_⟩
            intro m s' v' hm hs hvs
            cases m with
            | zero =>
              simp at hs hvs
              subst hs hvs
              exact ⟨hv', hc⟩
            | succ m =>
              have := h5 m s' v' (by omega) (by simpa using hs) (by simpa using hvs)
              rw [show idx + (m + 1) = idx + 1 + m by omega]
              exact this
          · rintro ⟨i, v, rfl, h1, h2, h3, h4, h5⟩
            cases i with
            | zero =>
              simp at h1 h2
              subst h1 h2
              exact absurd ⟨h3, h4⟩ hc
            | succ i =>
              refine ⟨i, v, by omega, by simpa using h1, by simpa using h2, h3, h4, ?_⟩
              intro m s' v' hm hs hvs
              have := h5 (m + 1) s' v' (by omega) (by simpa using hs) (by simpa using hvs)
              rw [show idx + (m + 1) = idx + 1 + m by omega] at this
              exact this

/-- The buckets written. -/
theorem gnuBuckets_spec (bc base count : Nat) (hash : Nat → Nat) (hbc : 0 < bc) (hsorted : SortedByBucket bc count hash)
    (hU : base + count ≤ U32) (n i bucket : Nat) (hn : i + n = count) (hb : bucket ≤ bc)
    (hlow : ∀ k, i ≤ k → k < count → bucket ≤ hash k % bc + 1) :
    ∃ R, gnuBuckets bc base hash (List.range' i n) bucket = .ok R ∧ R.length = bc - bucket ∧
      ∀ b, bucket ≤ b → b < bc →
        (∃ k, i ≤ k ∧ k < count ∧ hash k % bc = b ∧ (∀ m, i ≤ m → m < k → hash m % bc ≠ b) ∧ R[b - bucket]? = some (base + k)) ∨
        ((∀ k, i ≤ k → k < count → hash k % bc ≠ b) ∧ R[b - bucket]? = some 0) := by
  induction n generalizing i bucket with
  | zero =>
    refine ⟨_, rfl, by simp, fun b h1 h2 => .inr ⟨fun k _ _ => by omega, ?_⟩⟩
    rw [List.getElem?_replicate, if_pos (by omega)]
  | succ n ih =>
    have hsb : hash i % bc < bc := Nat.mod_lt _ hbc
    have hs : ∀ k, i ≤ k → k < count → hash i % bc ≤ hash k % bc := fun k h1 h2 => hsorted i k h1 h2
    rw [List.range'_succ]
    unfold gnuBuckets
    by_cases hc : bucket ≤ hash i % bc
    · have hmax : max bucket (hash i % bc) = hash i % bc := by omega
      simp only [hmax, if_true]
      rw [if_neg (by omega)]
      obtain ⟨R, hR, hlen, hspec⟩ := ih (i + 1) (hash i % bc + 1) (by omega) (by omega)
        (fun k h1 h2 => by have := hs k (by omega) h2; omega)
      rw [hR]
      refine ⟨_, rfl, by simp; omega, fun b h1 h2 => ?_⟩
      by_cases hb1 : b < hash i % bc
      · right
        refine ⟨fun k hk1 hk2 => by have := hs k hk1 hk2; omega, ?_⟩
        rw [List.getElem?_append_left (by simp; omega), List.getElem?_replicate, if_pos (by omega)]
      · rw [List.getElem?_append_right (by simp; omega), List.length_replicate]
        by_cases hb2 : b = hash i % bc
        · left
          refine ⟨i, by omega, by omega, hb2.symm, fun m _ _ => by omega, ?_⟩
          rw [show b - bucket - (hash i % bc - bucket) = 0 by omega]; rfl
        · have e : b - bucket - (hash i % bc - bucket) = (b - (hash i % bc + 1)) + 1 := by omega
          rw [e, List.getElem?_cons_succ]
          rcases hspec b (by omega) h2 with ⟨k, k1, k2, k3, k4, k5⟩ | ⟨k1, k2⟩
          · exact .inl ⟨k, by omega, k2, k3, fun m hm1 hm2 => by
              by_cases hm : m = i
              · subst hm; omega
              · exact k4 m (by omega) hm2, k5⟩
          · exact .inr ⟨fun k hk1 hk2 => by
              by_cases hk : k = i
              · subst hk; omega
              · exact k1 k (by omega) hk2, k2⟩
    · have hmax : max bucket (hash i % bc) = bucket := by omega
      simp only [hmax]
      rw [if_neg (by omega)]
      obtain ⟨R, hR, hlen, hspec⟩ := ih (i + 1) bucket (by omega) hb (fun k h1 h2 => hlow k (by omega) h2)
      rw [hR]
      have hz : hash i % bc - bucket = 0 := by omega
      simp only [hz, List.replicate_zero, List.nil_append]
      refine ⟨R, rfl, hlen, fun b h1 h2 => ?_⟩
      rcases hspec b h1 h2 with ⟨k, k1, k2, k3, k4, k5⟩ | ⟨k1, k2⟩
      · exact .inl ⟨k, by omega, k2, k3, fun m hm1 hm2 => by
          by_cases hm : m = i
          · subst hm; omega
          · exact k4 m (by omega) hm2, k5⟩
      · exact .inr ⟨fun k hk1 hk2 => by
          by_cases hk : k = i
          · subst hk; omega
          · exact k1 k (by omega) hk2, k2⟩

/-- The words of the bloom filter: enough bits are set, and the words fit. -/
theorem bloom_spec (bits cnt shift : Nat) (hash : Nat → Nat) (hcnt : 0 < cnt) (hbits : 0 < bits) (is : List Nat) (fs : List Nat)
    (hlen : fs.length = cnt) (hfit : ∀ f ∈ fs, f < 2 ^ bits) :
    (is.foldl (bloomStep bits cnt shift hash) fs).length = cnt ∧
    (∀ f ∈ is.foldl (bloomStep bits cnt shift hash) fs, f < 2 ^ bits) ∧
    (∀ (k b : Nat), ((fs[k]?).getD 0).testBit b = true → (((is.foldl (bloomStep bits cnt shift hash) fs)[k]?).getD 0).testBit b = true) ∧
    (∀ i ∈ is, ∀ f, (is.foldl (bloomStep bits cnt shift hash) fs)[(hash i / bits) &&& (cnt - 1)]? = some f →
      f.testBit (hash i % bits) = true ∧ f.testBit ((hash i >>> shift) % bits) = true) := by
  induction is generalizing fs with
  | nil => simp [hlen]; exact hfit
  | cons i is ih =>
    have hk : (hash i / bits) &&& (cnt - 1) < fs.length := by
      have := Nat.and_le_right (n := hash i / bits) (m := cnt - 1); omega
    have h2 : ∀ x, x < bits → (1 : Nat) <<< x < 2 ^ bits := by
      intro x hx; rw [Nat.one_shiftLeft]; exact Nat.pow_lt_pow_right (by omega) hx
    have hw : ∀ f ∈ bloomStep bits cnt shift hash fs i, f < 2 ^ bits := by
      intro f hf
      unfold bloomStep at hf
      rcases List.mem_or_eq_of_mem_set hf with h | h
      · exact hfit f h
      · subst h
        refine Nat.or_lt_two_pow ?_ (Nat.or_lt_two_pow (h2 _ (Nat.mod_lt _ hbits)) (h2 _ (Nat.mod_lt _ hbits)))
        rw [List.getElem?_eq_getElem hk]
        exact hfit _ (List.getElem_mem hk)
    obtain ⟨a, b, c, d⟩ := ih (bloomStep bits cnt shift hash fs i) (by simp [bloomStep, hlen]) hw
    refine ⟨a, b, ?_, ?_⟩
    · intro k x hx
      apply c
      unfold bloomStep
      rw [List.getElem?_set]
      by_cases he : (hash i / bits) &&& (cnt - 1) = k
      · subst he
        rw [if_pos rfl, if_pos hk]
        simp [Nat.testBit_or, hx]
      · rw [if_neg he]; exact hx
    · intro i' hi' f hf
      rcases List.mem_cons.1 hi' with rfl | hi'
      · simp only [List.foldl_cons] at hf
        have hone : ∀ x, (1 <<< x : Nat).testBit x = true := by
          intro x; rw [Nat.one_shiftLeft]; exact Nat.testBit_two_pow_self
        have hstep : (bloomStep bits cnt shift hash fs i')[(hash i' / bits) &&& (cnt - 1)]? = some ((fs[(hash i' / bits) &&& (cnt - 1)]?).getD 0 ||| ((1 <<< (hash i' % bits)) ||| (1 <<< ((hash i' >>> shift) % bits)))) := by
          unfold bloomStep
          rw [List.getElem?_set, if_pos rfl, if_pos hk]
        have h3 := c ((hash i' / bits) &&& (cnt - 1)) (hash i' % bits) (by rw [hstep]; simp [Nat.testBit_or, hone])
        have h4 := c ((hash i' / bits) &&& (cnt - 1)) ((hash i' >>> shift) % bits) (by rw [hstep]; simp [Nat.testBit_or, hone])
        rw [hf] at h3 h4
        exact ⟨h3, h4⟩
      · exact d i' hi' f hf

theorem and_bit_eq_zero (f x : Nat) : f &&& (1 <<< x) = 0 ↔ f.testBit x = false := by
  rw [Nat.one_shiftLeft]
  constructor
  · intro h
    have := congrArg (fun n => Nat.testBit n x) h
    simpa [Nat.testBit_and, Nat.testBit_two_pow_self] using this
  · intro h
    apply Nat.eq_of_testBit_eq
    intro i
    rw [Nat.testBit_and, Nat.testBit_two_pow]
    by_cases hi : x = i
    · subst hi; simp [h]
    · simp [hi]

theorem readBytesAt_flatMap {α : Type} (enc : α → List UInt8) (size : Nat) (hs : 0 < size) (xs : List α)
    (h : ∀ x ∈ xs, (enc x).length = size) (k : Nat) (x : α) (hk : xs[k]? = some x) :
    ReadRef.readBytesAt (xs.flatMap enc) (k * size) size = .ok (enc x) := by
  obtain ⟨hlt, rfl⟩ := List.getElem?_eq_some_iff.1 hk
  have hsplit : xs.flatMap enc = (xs.take k).flatMap enc ++ (enc xs[k] ++ (xs.drop (k + 1)).flatMap enc) := by
    have h1 : xs = xs.take k ++ xs[k] :: xs.drop (k + 1) := by
      rw [← List.drop_eq_getElem_cons hlt, List.take_append_drop]
    have h2 := congrArg (List.flatMap enc) h1
    rw [List.flatMap_append, List.flatMap_cons] at h2
    exact h2
  have hl : ((xs.take k).flatMap enc).length = k * size := by
    rw [length_flatMap_const enc size _ (fun y hy => h y (List.mem_of_mem_take hy)), List.length_take, Nat.min_eq_left (by omega)]
  have hx := h xs[k] (List.getElem_mem hlt)
  rw [hsplit, readRef_readBytesAt_eq, if_pos (by simp only [List.length_append]; omega), slice_of_append hl hx]

/-! ## Values -/

theorem gnuValue_bits (bc count : Nat) (hash : Nat → Nat) (i : Nat) (h : hash i < U32) :
    gnuValue bc count hash i ||| 1 = hash i ||| 1 ∧ gnuValue bc count hash i < U32 ∧
      (gnuValue bc count hash i &&& 1 ≠ 0 ↔ (i = count - 1 ∨ hash i % bc ≠ hash (i + 1) % bc)) := by
  have hone : ∀ n : Nat, (1 : Nat).testBit n = decide (n = 0) := by
    intro n; rw [show (1 : Nat) = 2 ^ 0 from rfl, Nat.testBit_two_pow]; simp [eq_comm]
  have hmask : ∀ n : Nat, (U32 - 2).testBit n = (decide (n < 32) && decide (n ≠ 0)) := by
    intro n
    rw [show U32 - 2 = 2 ^ 32 - (1 + 1) from rfl, Nat.testBit_two_pow_sub_succ (by decide), hone]
    by_cases h0 : n = 0 <;> simp [h0]
  unfold gnuValue
  split
  · rename_i hc
    refine ⟨?_, ?_, ?_⟩
    · rw [Nat.or_assoc, Nat.or_self]
    · exact Nat.or_lt_two_pow (n := 32) h (by decide)
    · constructor
      · intro _; exact hc
      · intro _
        rw [Nat.and_one_is_mod, Nat.or_mod_two_eq_one.2 (Or.inr (by decide))]; decide
  · rename_i hc
    refine ⟨?_, ?_, ?_⟩
    · apply Nat.eq_of_testBit_eq
      intro n
      simp only [Nat.testBit_or, Nat.testBit_and, hmask, hone]
      by_cases h0 : n = 0
      · simp [h0]
      · by_cases hn : n < 32
        · simp [h0, hn]
        · have : (hash i).testBit n = false :=
            Nat.testBit_lt_two_pow (Nat.lt_of_lt_of_le h (Nat.pow_le_pow_right (n := 2) (i := 32) (by decide) (by omega)))
          simp [h0, this]
    · exact Nat.lt_of_le_of_lt Nat.and_le_left h
    · constructor
      · intro hne
        exfalso; apply hne
        apply Nat.eq_of_testBit_eq
        intro n
        simp only [Nat.testBit_and, hmask, hone, Nat.zero_testBit]
        by_cases h0 : n = 0 <;> simp [h0]
      · intro hx; exact absurd hx hc

theorem gnuLength_eq (mb : Nat) (vs : List Nat) (c n : Nat) (h : ∀ m, m < n → ∃ v, vs[m]? = some v ∧ v &&& 1 = 0)
    (hl : ∃ v, vs[n]? = some v ∧ v &&& 1 ≠ 0) (hU : mb + (c + n + 1) < U32) : gnuLength mb vs c = some (mb + (c + n + 1)) := by
  induction n generalizing vs c with
  | zero =>
    obtain ⟨v, hv, hv1⟩ := hl
    cases vs with
    | nil => simp at hv
    | cons a vs =>
      simp at hv; subst hv
      unfold gnuLength
      rw [if_pos hv1, if_pos (by omega)]
  | succ n ih =>
    cases vs with
    | nil => obtain ⟨v, hv, -⟩ := h 0 (by omega); simp at hv
    | cons a vs =>
      obtain ⟨v, hv, hv0⟩ := h 0 (by omega)
      simp at hv; subst hv
      unfold gnuLength
      rw [if_neg (by omega), ih vs (c + 1) (fun m hm => by simpa using h (m + 1) (by omega)) (by simpa using hl) (by omega)]
      congr 1; omega

end Obj.Elf
