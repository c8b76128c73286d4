import Verif.Spec.Archive
import Verif.Proof.ReadRef
import Verif.Proof.Bytes

/-! # Lemmas for archives -/

namespace Obj.Archive
open Obj Obj.Spec.ArchiveS

/-! ## Numbers -/

theorem foldl_ge (zero : UInt8) (radix : Nat) (hr : 0 < radix) (ds : List UInt8) (acc : Nat) :
    acc ≤ ds.foldl (fun acc d => acc * radix + (d.toNat - zero.toNat)) acc := by
  induction ds generalizing acc with
  | nil => simp
  | cons d ds ih =>
    rw [List.foldl_cons]
    have := ih (acc * radix + (d.toNat - zero.toNat))
    have : acc * 1 ≤ acc * radix := Nat.mul_le_mul_left _ hr
    omega

theorem digitsLoop_iff (zero space : UInt8) (radix : Nat) (hr : 0 < radix)
    (hs : ¬ (zero.toNat ≤ space.toNat ∧ space.toNat < zero.toNat + radix)) (l : List UInt8) (acc n : Nat) (ha : acc < U64) :
    digitsLoop zero space radix acc l = some n ↔
      ∃ digits rest, l = digits ++ rest ∧ (rest = [] ∨ rest.head? = some space) ∧
        (∀ d ∈ digits, zero.toNat ≤ d.toNat ∧ d.toNat < zero.toNat + radix) ∧
        n = digits.foldl (fun acc d => acc * radix + (d.toNat - zero.toNat)) acc ∧ n < U64 := by
  induction l generalizing acc with
  | nil =>
    simp only [digitsLoop, Option.some.injEq]
    constructor
    · rintro rfl; exact ⟨[], [], rfl, Or.inl rfl, by simp, rfl, ha⟩
    · rintro ⟨ds, r, h, -, -, h4, -⟩
      obtain ⟨rfl, rfl⟩ := List.append_eq_nil_iff.1 h.symm
      simpa using h4.symm
  | cons c cs ih =>
    simp only [digitsLoop]
    by_cases hc : c = space
    · subst hc
      simp only [if_true, Option.some.injEq]
      constructor
      · rintro rfl; exact ⟨[], c :: cs, rfl, Or.inr rfl, by simp, rfl, ha⟩
      · rintro ⟨ds, r, h, -, h3, h4, -⟩
        cases ds with
        | nil => simpa using h4.symm
        | cons d ds =>
          simp at h
          have := h3 d (by simp)
          rw [← h.1] at this
          exact absurd this hs
    · rw [if_neg hc]
      by_cases hd : zero.toNat ≤ c.toNat ∧ c.toNat < zero.toNat + radix
      · rw [if_pos hd]
        -- in any decomposition the first digit is c
        have key : ∀ n, (∃ digits rest, c :: cs = digits ++ rest ∧ (rest = [] ∨ rest.head? = some space) ∧
            (∀ d ∈ digits, zero.toNat ≤ d.toNat ∧ d.toNat < zero.toNat + radix) ∧
            n = digits.foldl (fun acc d => acc * radix + (d.toNat - zero.toNat)) acc ∧ n < U64) ↔
            ∃ digits rest, cs = digits ++ rest ∧ (rest = [] ∨ rest.head? = some space) ∧
            (∀ d ∈ digits, zero.toNat ≤ d.toNat ∧ d.toNat < zero.toNat + radix) ∧
            n = digits.foldl (fun acc d => acc * radix + (d.toNat - zero.toNat)) (acc * radix + (c.toNat - zero.toNat)) ∧ n < U64 := by
          intro n
          constructor
          · rintro ⟨ds, r, h1, h2, h3, h4, h5⟩
            cases ds with
            | nil =>
              simp at h1; subst h1
              simp at h2; exact absurd h2 hc
            | cons d ds =>
              simp at h1
              obtain ⟨rfl, rfl⟩ := h1
              exact ⟨ds, r, rfl, h2, fun d' hd' => h3 d' (by simp [hd']), by simpa using h4, h5⟩
          · rintro ⟨ds, r, rfl, h2, h3, h4, h5⟩
            refine ⟨c :: ds, r, rfl, h2, ?_, by simpa using h4, h5⟩
            intro d' hd'
            rcases List.mem_cons.1 hd' with rfl | hd'
            · exact hd
            · exact h3 d' hd'
        rw [key]
        by_cases h1 : U64 ≤ acc * radix
        · rw [if_pos h1]
          simp only [reduceCtorEq, false_iff]
          rintro ⟨ds, r, -, -, -, h4, h5⟩
          have := foldl_ge zero radix hr ds (acc * radix + (c.toNat - zero.toNat))
          omega
        · rw [if_neg h1]
          by_cases h2 : U64 ≤ acc * radix + (c.toNat - zero.toNat)
          · rw [if_pos h2]
            simp only [reduceCtorEq, false_iff]
            rintro ⟨ds, r, -, -, -, h4, h5⟩
            have := foldl_ge zero radix hr ds (acc * radix + (c.toNat - zero.toNat))
            omega
          · rw [if_neg h2]
            exact ih _ (by omega)
      · rw [if_neg hd]
        simp only [reduceCtorEq, false_iff]
        rintro ⟨ds, r, h1, h2, h3, -, -⟩
        cases ds with
        | nil => simp at h1; subst h1; simp at h2; exact absurd h2 hc
        | cons d ds => simp at h1; have := h3 d (by simp); rw [← h1.1] at this; exact hd this

theorem number_iff (zero space : UInt8) (radix : Nat) (hr : 0 < radix)
    (hs : ¬ (zero.toNat ≤ space.toNat ∧ space.toNat < zero.toNat + radix)) (l : List UInt8) (n : Nat) :
    (if l.head? = some space then none else digitsLoop zero space radix 0 l) = some n ↔ Number zero space radix l n := by
  unfold Number value
  by_cases h : l.head? = some space
  · rw [if_pos h]
    simp only [reduceCtorEq, false_iff]
    rintro ⟨ds, r, rfl, h2, h3, h4, -, -⟩
    cases ds with
    | nil => simp at h3 h; subst h3; simp at h
    | cons d ds =>
      simp at h; subst h
      exact hs (h4 _ (by simp))
  · rw [if_neg h, digitsLoop_iff zero space radix hr hs l 0 n (by omega)]
    constructor
    · rintro ⟨ds, r, rfl, h2, h3, h4, h5⟩
      refine ⟨ds, r, rfl, h2, ?_, h3, h4, h5⟩
      cases ds with
      | nil =>
        left
        rcases h2 with h2 | h2
        · simpa using h2
        · exact absurd (by simpa using h2) h
      | cons d ds => right; simp
    · rintro ⟨ds, r, h1, h2, -, h3, h4, h5⟩
      exact ⟨ds, r, h1, h2, h3, h4, h5⟩

theorem decimal_ne_nil (n : Nat) : decimal n ≠ [] := by
  unfold decimal; split <;> simp

theorem decimal_digits (n : Nat) : ∀ d ∈ decimal n, 48 ≤ d.toNat ∧ d.toNat < 58 := by
  induction n using Nat.strongRecOn with
  | _ n ih =>
    unfold decimal
    split
    · intro d hd; simp at hd; subst hd; simp; omega
    · intro d hd
      simp at hd
      rcases hd with hd | rfl
      · exact ih (n / 10) (by omega) d hd
      · simp; omega

theorem value_decimal (n : Nat) : value 0x30 10 (decimal n) = n := by
  induction n using Nat.strongRecOn with
  | _ n ih =>
    unfold decimal
    split
    · rename_i h
      simp only [value, List.foldl_cons, List.foldl_nil]
      have : (UInt8.ofNat (48 + n)).toNat = 48 + n := by simp; omega
      rw [this]; simp
    · have h2 := ih (n / 10) (by omega)
      simp only [value] at *
      rw [List.foldl_append, h2]
      simp only [List.foldl_cons, List.foldl_nil]
      have : (UInt8.ofNat (48 + n % 10)).toNat = 48 + n % 10 := by simp; omega
      rw [this]
      simp only [UInt8.reduceToNat]
      omega

theorem parseDigits_decimal (n w : Nat) (hn : n < U64) : parseDigits (spaces w (decimal n)) 10 = some n := by
  unfold parseDigits
  rw [number_iff 0x30 0x20 10 (by omega) (by decide)]
  refine ⟨decimal n, List.replicate (w - (decimal n).length) 0x20, rfl, ?_, Or.inr (decimal_ne_nil n), ?_, (value_decimal n).symm, hn⟩
  · cases w - (decimal n).length <;> simp [List.replicate]
  · intro d hd
    have := decimal_digits n d hd
    simp; omega

/-- At most `k` digits exactly when below `10^k`. -/
theorem length_decimal (n k : Nat) (hk : 0 < k) : (decimal n).length ≤ k ↔ n < 10 ^ k := by
  induction k generalizing n with
  | zero => omega
  | succ k ih =>
    unfold decimal
    split
    · simp
      have : 10 ^ 1 ≤ 10 ^ (k + 1) := Nat.pow_le_pow_right (by omega) (by omega)
      omega
    · simp only [List.length_append, List.length_cons, List.length_nil, Nat.add_le_add_iff_right]
      by_cases hk0 : k = 0
      · subst hk0
        have := List.length_pos_iff.2 (decimal_ne_nil (n / 10))
        omega
      · have := ih (n / 10) (by omega)
        rw [Nat.pow_succ]
        omega

/-! ## Members -/

theorem length_spaces {w : Nat} {b : List UInt8} (h : b.length ≤ w) : (spaces w b).length = w := by
  simp [spaces]; omega

theorem length_header {nf info : List UInt8} {size : Nat} (h1 : nf.length ≤ 16) (h2 : info.length = 32)
    (h3 : (decimal size).length ≤ 10) : (header nf info size).length = 60 := by
  simp [header, length_spaces h1, length_spaces h3, h2]

theorem hdr_fields {nf info : List UInt8} {size : Nat} (h1 : nf.length ≤ 16) (h2 : info.length = 32)
    (h3 : (decimal size).length ≤ 10) :
    hdrName (header nf info size) = spaces 16 nf ∧ hdrSize (header nf info size) = spaces 10 (decimal size) ∧
    hdrTerminator (header nf info size) = terminator ∧ slice (header nf info size) 16 32 = info := by
  have l1 := length_spaces h1
  have l3 := length_spaces h3
  unfold header hdrName hdrSize hdrTerminator
  refine ⟨?_, ?_, ?_, ?_⟩
  · have := slice_of_append (a := []) (b := spaces 16 nf) (c := info ++ (spaces 10 (decimal size) ++ [0x60, 0x0a])) rfl l1
    simpa using this
  · have := slice_of_append (a := spaces 16 nf ++ info) (b := spaces 10 (decimal size)) (c := [0x60, 0x0a]) (off := 48) (by simp; omega) l3
    simpa using this
  · have := slice_of_append (a := spaces 16 nf ++ info ++ spaces 10 (decimal size)) (b := [0x60, 0x0a]) (c := []) (off := 58) (n := 2) (by simp; omega) rfl
    simpa [terminator] using this
  · have := slice_of_append (a := spaces 16 nf) (b := info) (c := spaces 10 (decimal size) ++ [0x60, 0x0a]) (off := 16) l1 h2
    simpa using this

theorem read_at_append {pre b post : List UInt8} {n : Nat} (hb : b.length = n) (hl : (pre ++ (b ++ post)).length < U64) :
    ReadRef.read (pre ++ (b ++ post)) pre.length n = (.ok b, pre.length + n) := by
  unfold ReadRef.read ReadRef.readBytes
  rw [readRef_readBytesAt_eq, if_pos (by simp; omega), slice_of_append rfl hb]
  simp at hl ⊢
  omega

theorem idx_cons (a : UInt8) (l : List UInt8) : idx (a :: l) 0 = a := rfl
theorem idx_cons_succ (a : UInt8) (l : List UInt8) (i : Nat) : idx (a :: l) (i + 1) = idx l i := rfl

theorem idx_mem {l : List UInt8} {i : Nat} (h : i < l.length) : idx l i ∈ l := by
  simp [idx, h]

theorem isDigit_decimal (n : Nat) (rest : List UInt8) : isDigit 0x30 (idx (decimal n ++ rest) 0) = true := by
  have h := decimal_ne_nil n
  match hd : decimal n with
  | [] => exact absurd hd h
  | d :: ds =>
    have := decimal_digits n d (by simp [hd])
    simp [isDigit, idx]; omega

theorem spaces_cons {w : Nat} (a : UInt8) (b : List UInt8) (_hw : 0 < w) : spaces w (a :: b) = a :: spaces (w - 1) b := by
  simp only [spaces, List.length_cons, List.cons_append]
  congr 3; omega

theorem memchr2_append {a b : UInt8} {pre suf : List UInt8} {c : UInt8} (ha : a ∉ pre) (hb : b ∉ pre) (hc : c = a ∨ c = b) :
    memchr2 a b (pre ++ c :: suf) = some pre.length := by
  induction pre with
  | nil => simp [memchr2, hc]
  | cons x xs ih =>
    simp at ha hb
    simp only [List.cons_append, memchr2]
    rw [if_neg (by rintro (h | h); exact ha.1 h.symm; exact hb.1 h.symm), ih ha.2 hb.2]
    simp

/-- Names table lookup. -/
theorem parseSysvName_table (names name before after : List UInt8) (w : Nat) (hn : (0x0a : UInt8) ∉ name) (h0 : (0 : UInt8) ∉ name)
    (hb : before.length < U64)
    (h : names = before ++ name ++ [0x2f, 0x0a] ++ after ∨ names = before ++ name ++ [0] ++ after) :
    parseSysvName (spaces w (decimal before.length)) names = .ok name := by
  unfold parseSysvName
  rw [parseDigits_decimal _ _ hb]
  simp only [Res.ofOption_some, Res.bind_eq, Res.ok_bind]
  rcases h with rfl | rfl
  · rw [if_neg (by simp)]
    have hd : (before ++ name ++ [0x2f, 0x0a] ++ after).drop before.length = (name ++ [0x2f]) ++ 0x0a :: after := by simp
    rw [hd, memchr2_append (by simp [hn]) (by simp [h0]) (Or.inl rfl)]
    simp [Res.ofOption, Res.bind]
  · rw [if_neg (by simp)]
    have hd : (before ++ name ++ [0] ++ after).drop before.length = name ++ 0 :: after := by simp
    rw [hd, memchr2_append hn h0 (Or.inr rfl)]
    simp [Res.ofOption, Res.bind]

theorem trimNul_pad {name : List UInt8} (h0 : (0 : UInt8) ∉ name) (pad : Nat) :
    trimNul (name ++ List.replicate pad 0) = name := by
  unfold trimNul
  cases pad with
  | zero =>
    have : memchr 0 (name ++ List.replicate 0 0) = none := (memchr_none_iff ..).2 (by simpa using h0)
    rw [this]; simp
  | succ k =>
    rw [List.replicate_succ, memchr_append h0]; simp

theorem slash_of_decimal (n : Nat) : (0x2f : UInt8) ∉ decimal n := by
  intro h; have := decimal_digits n _ h; simp at this

/-- What `commonName` gives for each way of storing a name; `start` is the position after the header. -/
theorem commonName_form (names : List UInt8) (e : Entry) (f : Form) (hok : Storable names e f)
    (pre post : List UInt8) (thin : Bool) (hthin : thin = true → ∀ pad, f ≠ .inline pad)
    (hl : (pre ++ (member thin e f ++ post)).length < U64) (hn : names.length < U64) :
    commonName (pre ++ (member thin e f ++ post)) names (spaces 16 (nameField e f))
      (pre.length + 60) (content e f).length =
      .ok (e.name, pre.length + 60 + ((content e f).length - e.body.length), e.body.length) := by
  obtain ⟨hi, hsz, hf⟩ := hok
  cases f with
  | slash =>
    obtain ⟨hne, hs, hlen⟩ := hf
    simp only [content, nameField] at *
    match hname : e.name with
    | [] => exact absurd hname hne
    | c :: cs =>
      have hc : c ≠ 0x2f := by rintro rfl; exact hs (by simp [hname])
      have hmem : memchr 0x2f (spaces 16 ((c :: cs) ++ [0x2f])) = some (cs.length + 1) := by
        have : spaces 16 ((c :: cs) ++ [0x2f]) = (c :: cs) ++ 0x2f :: List.replicate (16 - (cs.length + 2)) 0x20 := by
          simp [spaces]
        rw [this, memchr_append (by rw [← hname]; exact hs)]; rfl
      have h0 : idx (spaces 16 ((c :: cs) ++ [0x2f])) 0 = c := by simp [spaces, idx]
      unfold commonName
      simp only [h0]
      rw [if_neg (by simp [hc]), if_neg, if_neg hc]
      · rw [hmem]
        simp [spaces]
      · -- `#1/` followed by a digit cannot happen
        rintro ⟨ht, hd⟩
        have hlen' : cs.length + 1 ≤ 15 := by rw [hname] at hlen; simpa using hlen
        have hs' : (0x2f : UInt8) ∉ c :: cs := by rw [← hname]; exact hs
        match cs, hs', hlen' with
        | [], _, _ => simp [spaces] at ht
        | [c1], _, _ =>
          have : idx (spaces 16 ([c, c1] ++ [0x2f])) 3 = 0x20 := by simp [spaces, idx, List.replicate]
          rw [this] at hd; simp [isDigit] at hd
        | c1 :: c2 :: cs', hs', _ =>
          simp [spaces] at ht
          simp [ht.2.2] at hs'
  | plain =>
    obtain ⟨hs, hsp, hlen⟩ := hf
    simp only [content, nameField] at *
    have hno : (0x2f : UInt8) ∉ spaces 16 e.name := by simp [spaces, hs]
    have h0 : idx (spaces 16 e.name) 0 ≠ 0x2f := by
      intro h
      exact hno (h ▸ idx_mem (by rw [length_spaces hlen]; omega))
    unfold commonName
    rw [if_neg (by simp [h0]), if_neg, if_neg h0]
    · have h1 : memchr 0x2f (spaces 16 e.name) = none := (memchr_none_iff ..).2 hno
      rw [h1]
      have h2 : (spaces 16 e.name).take ((memchr 0x20 (spaces 16 e.name)).getD (spaces 16 e.name).length) = e.name := by
        by_cases h16 : e.name.length = 16
        · have : spaces 16 e.name = e.name := by simp [spaces, h16]
          rw [this, (memchr_none_iff ..).2 hsp]; simp
        · have : spaces 16 e.name = e.name ++ 0x20 :: List.replicate (15 - e.name.length) 0x20 := by
            simp only [spaces]
            rw [show 16 - e.name.length = (15 - e.name.length) + 1 by omega, List.replicate_succ]
          rw [this, memchr_append hsp]; simp
      simp only [Option.none_or]
      rw [h2]; simp
    · rintro ⟨ht, -⟩
      have : (0x2f : UInt8) ∈ (spaces 16 e.name).take 3 := by rw [ht]; simp
      exact hno (List.mem_of_mem_take this)
  | table offset =>
    obtain ⟨hnl, h0, hdl, before, after, rfl, hnames⟩ := hf
    simp only [content, nameField] at *
    rw [spaces_cons _ _ (by omega)]
    unfold commonName
    simp only [idx_cons, List.drop_one, List.tail_cons]
    have : idx (0x2f :: spaces (16 - 1) (decimal before.length)) 1 = idx (decimal before.length ++ List.replicate (15 - (decimal before.length).length) 0x20) 0 := rfl
    rw [this]
    simp only [isDigit_decimal, and_self, if_true]
    rw [parseSysvName_table names e.name before after _ hnl h0 (by rcases hnames with h | h <;> (rw [h] at hn; simp at hn; omega)) hnames]
    simp
  | inline pad =>
    obtain ⟨h0, hdl⟩ := hf
    have hthin' : thin = false := by
      cases thin with
      | false => rfl
      | true => exact absurd rfl (hthin rfl pad)
    subst hthin'
    simp only [content, nameField] at *
    have hhl := length_header (nf := [0x23, 0x31, 0x2f] ++ decimal (e.name.length + pad)) (info := e.info)
      (size := (e.name ++ List.replicate pad 0 ++ e.body).length) (by simp; omega) hi hsz
    have hsp : spaces 16 ([0x23, 0x31, 0x2f] ++ decimal (e.name.length + pad)) =
        0x23 :: 0x31 :: 0x2f :: spaces 13 (decimal (e.name.length + pad)) := by
      simp [spaces_cons]
    rw [hsp]
    unfold commonName
    simp only [idx_cons, List.drop_succ_cons, List.drop_zero, List.take_succ_cons, List.take_zero]
    rw [if_neg (by simp), if_pos]
    · unfold bsdName
      have hlt : e.name.length + pad < U64 := by
        simp [member, content, padded, nameField] at hl; omega
      rw [parseDigits_decimal _ _ hlt]
      simp only [Res.ofOption_some, Res.bind_eq, Res.ok_bind]
      rw [if_neg (by simp)]
      have hdata : pre ++ (member false e (.inline pad) ++ post) =
          (pre ++ header ([0x23, 0x31, 0x2f] ++ decimal (e.name.length + pad)) e.info (e.name ++ List.replicate pad 0 ++ e.body).length) ++
            ((e.name ++ List.replicate pad 0) ++ (e.body ++ ((if (content e (.inline pad)).length % 2 = 1 then [0x0a] else []) ++ post))) := by
        simp [member, padded, content, nameField]
      have hr := read_at_append (pre := pre ++ header ([0x23, 0x31, 0x2f] ++ decimal (e.name.length + pad)) e.info (e.name ++ List.replicate pad 0 ++ e.body).length)
        (b := e.name ++ List.replicate pad 0) (post := e.body ++ ((if (content e (.inline pad)).length % 2 = 1 then [0x0a] else []) ++ post))
        (n := e.name.length + pad) (by simp) (by rw [← hdata]; exact hl)
      rw [← hdata, List.length_append, hhl] at hr
      unfold ReadRef.read at hr
      rw [hr]
      simp only [Res.ok_bind]
      rw [trimNul_pad h0]
      simp; omega
    · exact ⟨trivial, isDigit_decimal _ _⟩

/-- Reading a member back. -/
theorem parseCommon_member (names : List UInt8) (e : Entry) (f : Form) (hok : Storable names e f)
    (pre post : List UInt8) (thin : Bool)
    (hthin : thin = true → ¬ Reserved e.name ∧ ∀ pad, f ≠ .inline pad)
    (hl : (pre ++ (member thin e f ++ post)).length < U64) (hn : names.length < U64) :
    parseCommon (pre ++ (member thin e f ++ post)) pre.length names thin =
      .ok (⟨.common, header (nameField e f) e.info (content e f).length, e.name,
        if thin then 0 else pre.length + 60 + ((content e f).length - e.body.length), e.body.length⟩,
        pre.length + (member thin e f).length) := by
  have hcn := commonName_form names e f hok pre post thin (fun h => (hthin h).2) hl hn
  obtain ⟨hi, hsz, hf⟩ := hok
  have hnf : (nameField e f).length ≤ 16 := by
    cases f with
    | slash => have := hf.2.2; simp only [nameField, List.length_append, List.length_cons, List.length_nil]; omega
    | plain => exact hf.2.2
    | table offset => have := hf.2.2.1; simp only [nameField, List.length_cons]; omega
    | inline pad => have := hf.2; simp only [nameField, List.length_append, List.length_cons, List.length_nil]; omega
  obtain ⟨f1, f2, f3, f4⟩ := hdr_fields hnf hi hsz
  have hhl := length_header hnf hi hsz
  have hclt : (content e f).length < U64 := by
    have := (length_decimal (content e f).length 10 (by omega)).1 hsz
    omega
  have hdata : pre ++ (member thin e f ++ post) = pre ++ (header (nameField e f) e.info (content e f).length ++
      ((if thin then [] else padded (content e f)) ++ post)) := by simp [member]
  have hr := read_at_append (pre := pre) (b := header (nameField e f) e.info (content e f).length)
    (post := (if thin then [] else padded (content e f)) ++ post) hhl (by rw [← hdata]; exact hl)
  rw [← hdata] at hr
  unfold parseCommon
  simp only [hr, Res.bind_eq, Res.ok_bind, f3, f2, f1]
  simp only [ne_eq, not_true_eq_false, if_false, parseDigits_decimal _ _ hclt, Res.ofOption_some, Res.ok_bind, hcn]
  cases thin with
  | true =>
    have hres := (hthin rfl).1
    rw [if_pos]
    · simp [member, hhl]
    · refine ⟨rfl, ?_, ?_, ?_⟩ <;> intro h <;> apply hres <;> rw [h] <;> unfold Reserved <;> decide +kernel
  | false =>
    rw [if_neg (by simp)]
    unfold skipData
    have hml : (member false e f).length = 60 + (content e f).length + (content e f).length % 2 := by
      simp only [member, padded, List.length_append, hhl, Bool.false_eq_true, if_false]
      split <;> simp <;> omega
    simp only [List.length_append, hml] at hl
    rw [if_neg (by omega)]
    simp only [Res.ok_bind, hml]
    have hnext : (if (content e f).length % 2 ≠ 0 then min (pre.length + 60 + (content e f).length + 1) (U64 - 1)
        else pre.length + 60 + (content e f).length) = pre.length + (60 + (content e f).length + (content e f).length % 2) := by
      by_cases h2 : (content e f).length % 2 = 0
      · rw [if_neg (by omega)]; omega
      · rw [if_pos h2, Nat.min_eq_left (by omega)]; omega
    rw [hnext]
    rfl

/-- Reading a special member back. -/
theorem parseCommon_special (names name info body pre post : List UInt8) (thin : Bool)
    (h0 : idx name 0 = 0x2f) (h1 : isDigit 0x30 (idx (spaces 16 name) 1) = false) (hsp : 0x20 ∉ name) (hlen : name.length ≤ 16)
    (hne : name ≠ [])
    (hthin : thin = true → name = [0x2f] ∨ name = [0x2f, 0x2f] ∨ name = [0x2f, 0x53, 0x59, 0x4d, 0x36, 0x34, 0x2f])
    (hi : info.length = 32) (hb : body.length < 10 ^ 10)
    (hl : (pre ++ (specialMember name info body ++ post)).length < U64) :
    parseCommon (pre ++ (specialMember name info body ++ post)) pre.length names thin =
      .ok (⟨.common, header name info body.length, name, pre.length + 60, body.length⟩,
        pre.length + (specialMember name info body).length) := by
  have hsz := (length_decimal body.length 10 (by omega)).2 hb
  obtain ⟨f1, f2, f3, f4⟩ := hdr_fields hlen hi hsz
  have hhl := length_header hlen hi hsz
  have hdata : pre ++ (specialMember name info body ++ post) = pre ++ (header name info body.length ++ (padded body ++ post)) := by
    simp [specialMember]
  have hr := read_at_append (pre := pre) (b := header name info body.length) (post := padded body ++ post) hhl (by rw [← hdata]; exact hl)
  rw [← hdata] at hr
  have h0' : idx (spaces 16 name) 0 = 0x2f := by
    match hn : name with
    | [] => exact absurd rfl hne
    | c :: cs => simpa [spaces, idx] using h0
  have hcn : ∀ data, commonName data names (spaces 16 name) (pre.length + 60) body.length = .ok (name, pre.length + 60, body.length) := by
    intro data
    unfold commonName
    rw [if_neg (by simp [h1]), if_neg, if_pos h0']
    · have h2 : (spaces 16 name).take ((memchr 0x20 (spaces 16 name)).getD (spaces 16 name).length) = name := by
        by_cases h16 : name.length = 16
        · have : spaces 16 name = name := by simp [spaces, h16]
          rw [this, (memchr_none_iff ..).2 hsp]; simp
        · have : spaces 16 name = name ++ 0x20 :: List.replicate (15 - name.length) 0x20 := by
            simp only [spaces]
            rw [show 16 - name.length = (15 - name.length) + 1 by omega, List.replicate_succ]
          rw [this, memchr_append hsp]; simp
      rw [h2]
    · rintro ⟨ht, -⟩
      match hn : name with
      | [] => exact absurd rfl hne
      | c :: cs =>
        simp [spaces, idx] at h0' ht
        rw [h0'] at ht
        exact absurd ht.1 (by decide)
  unfold parseCommon
  simp only [hr, Res.bind_eq, Res.ok_bind, f3, f2, f1]
  simp only [ne_eq, not_true_eq_false, if_false, parseDigits_decimal _ 10 (by omega : body.length < U64), Res.ofOption_some,
    Res.ok_bind, hcn]
  rw [if_neg]
  · unfold skipData
    have hml : (specialMember name info body).length = 60 + body.length + body.length % 2 := by
      simp only [specialMember, padded, List.length_append, hhl]
      split <;> simp <;> omega
    simp only [List.length_append, hml] at hl
    rw [if_neg (by omega)]
    simp only [Res.ok_bind, hml]
    have hnext : (if body.length % 2 ≠ 0 then min (pre.length + 60 + body.length + 1) (U64 - 1)
        else pre.length + 60 + body.length) = pre.length + (60 + body.length + body.length % 2) := by
      by_cases h2 : body.length % 2 = 0
      · rw [if_neg (by omega)]; omega
      · rw [if_pos h2, Nat.min_eq_left (by omega)]; omega
    rw [hnext]
  · rintro ⟨ht, h2, h3, h4⟩
    rcases hthin ht with h | h | h
    · exact h2 h
    · exact h3 h
    · exact h4 h

/-! ## Safety -/

theorem readRef_read_cases (d : List UInt8) (off n : Nat) (hn : 0 < n) (hl : d.length < U64) :
    (off + n ≤ d.length ∧ ReadRef.read d off n = (.ok (slice d off n), off + n)) ∨
    (d.length < off + n ∧ ReadRef.read d off n = (.err, off)) := by
  unfold ReadRef.read ReadRef.readBytes
  rw [readRef_readBytesAt_pos hn]
  by_cases h : off + n ≤ d.length
  · left; rw [if_pos h]; simp only; exact ⟨h, by rw [Nat.mod_eq_of_lt (by omega)]⟩
  · right; rw [if_neg h]; exact ⟨by omega, rfl⟩

theorem memchr2_lt {a b : UInt8} {l : List UInt8} {n : Nat} (h : memchr2 a b l = some n) : n < l.length := by
  induction l generalizing n with
  | nil => simp [memchr2] at h
  | cons x xs ih =>
    simp only [memchr2] at h
    split at h
    · simp at h; subst h; simp
    · simp only [Option.map_eq_some_iff] at h
      obtain ⟨m, hm, rfl⟩ := h
      have := ih hm
      simp; omega

theorem parseSysvName_no_panic (digits names : List UInt8) : parseSysvName digits names ≠ .panic := by
  unfold parseSysvName
  cases hp : parseDigits digits 10 with
  | none => simp
  | some offset =>
    simp only [Res.ofOption_some, Res.bind_eq, Res.ok_bind]
    split
    · simp
    · cases hm : memchr2 0x0a 0 (names.drop offset) with
      | none => simp
      | some len =>
        simp only [Res.ofOption_some, Res.ok_bind]
        have hlt := memchr2_lt hm
        rw [List.getElem?_eq_getElem hlt]
        simp only
        split
        · split
          · simp
          · rw [List.getElem?_eq_getElem (by omega : len - 1 < (names.drop offset).length)]
            simp only
            split <;> simp
        · simp

theorem readBytes_no_panic (d : List UInt8) (off n : Nat) : (ReadRef.readBytes d off n).1 ≠ .panic := by
  unfold ReadRef.readBytes
  rw [readRef_readBytesAt_eq]
  by_cases h : n = 0 ∨ off + n ≤ d.length
  · rw [if_pos h]; simp
  · rw [if_neg h]; simp

theorem bsdName_cases (len : Option Nat) (data : List UInt8) (offset size : Nat) (hl : data.length < U64)
    (ho : offset ≤ data.length) :
    bsdName len data offset size = .err ∨
    ∃ n name, len = some n ∧ n ≤ size ∧ offset + n ≤ data.length ∧ name = trimNul (slice data offset n) ∧
      bsdName len data offset size = .ok (name, offset + n, size - n) := by
  unfold bsdName
  cases len with
  | none => left; simp
  | some n =>
    simp only [Res.ofOption_some, Res.bind_eq, Res.ok_bind]
    by_cases h : size < n
    · left; rw [if_pos h]
    · rw [if_neg h]
      unfold ReadRef.readBytes
      rw [readRef_readBytesAt_eq]
      by_cases h2 : n = 0 ∨ offset + n ≤ data.length
      · rw [if_pos h2]
        right
        refine ⟨n, _, rfl, by omega, by omega, rfl, ?_⟩
        simp only [Res.ok_bind]
        rw [Nat.mod_eq_of_lt (by omega)]
      · rw [if_neg h2]; left; simp

theorem commonName_cases (data names name : List UInt8) (offset size : Nat) (hl : data.length < U64) (ho : offset ≤ data.length) :
    commonName data names name offset size = .err ∨
    ∃ n o s, commonName data names name offset size = .ok (n, o, s) ∧ offset ≤ o ∧ o + s = offset + size := by
  unfold commonName
  split
  · cases hp : parseSysvName (name.drop 1) names with
    | ok n => right; exact ⟨n, offset, size, by simp, by omega, rfl⟩
    | err => left; simp
    | panic => exact absurd hp (parseSysvName_no_panic _ _)
  · split
    · rcases bsdName_cases (parseDigits (name.drop 3) 10) data offset size hl ho with h | ⟨n, nm, -, h1, h2, -, h3⟩
      · left; exact h
      · right; exact ⟨nm, offset + n, size - n, h3, by omega, by omega⟩
    · split
      · right; exact ⟨_, _, _, rfl, by omega, rfl⟩
      · right; exact ⟨_, _, _, rfl, by omega, rfl⟩

theorem skipData_cases (offset size : Nat) (_ho : offset < U64) :
    skipData offset size = .err ∨ ∃ n, skipData offset size = .ok n ∧ offset + size ≤ n ∧ n < U64 := by
  unfold skipData
  by_cases h : U64 ≤ offset + size
  · left; rw [if_pos h]
  · right
    rw [if_neg h]
    refine ⟨_, rfl, ?_, ?_⟩ <;> split <;> omega

theorem parseCommon_cases (data : List UInt8) (offset : Nat) (names : List UInt8) (thin : Bool) (hl : data.length < U64) :
    parseCommon data offset names thin = .err ∨
    ∃ m next, parseCommon data offset names thin = .ok (m, next) ∧ offset + 60 ≤ data.length ∧ m.header = slice data offset 60 ∧
      m.headerKind = .common ∧
      offset + 60 ≤ next ∧ (m.offset = 0 ∧ thin = true ∨ (offset + 60 ≤ m.offset ∧ m.offset + m.size ≤ next)) := by
  unfold parseCommon
  rcases readRef_read_cases data offset 60 (by omega) hl with ⟨h1, h2⟩ | ⟨h1, h2⟩
  · simp only [h2, Res.bind_eq, Res.ok_bind]
    split
    · left; rfl
    · cases hp : parseDigits (hdrSize (slice data offset 60)) 10 with
      | none => left; simp
      | some hsize =>
        simp only [Res.ofOption_some, Res.ok_bind]
        rcases commonName_cases data names (hdrName (slice data offset 60)) (offset + 60) hsize hl h1 with h | ⟨n, o, s, h3, h4, h5⟩
        · left; simp [h]
        · simp only [h3, Res.ok_bind]
          split
          · rename_i ht
            right
            exact ⟨_, _, rfl, h1, rfl, rfl, by omega, Or.inl ⟨rfl, by simpa using ht.1⟩⟩
          · rcases skipData_cases (offset + 60) hsize (by omega) with h | ⟨nx, h6, h7, -⟩
            · left; simp [h]
            · right
              simp only [h6, Res.ok_bind]
              exact ⟨_, _, rfl, h1, rfl, rfl, by omega, Or.inr ⟨h4, by simp only; omega⟩⟩
  · left; simp [h2]

theorem parseZos_cases (data : List UInt8) (offset : Nat) (hl : data.length < U64) :
    parseZos data offset = .err ∨
    ∃ m next, parseZos data offset = .ok (m, next) ∧ offset + 60 ≤ data.length ∧ m.header = slice data offset 60 ∧
      m.headerKind = .zos ∧ offset + 60 ≤ next ∧ offset + 60 ≤ m.offset ∧ m.offset + m.size ≤ next := by
  unfold parseZos
  rcases readRef_read_cases data offset 60 (by omega) hl with ⟨h1, h2⟩ | ⟨h1, h2⟩
  · simp only [h2, Res.bind_eq, Res.ok_bind]
    split
    · left; rfl
    · cases hp : parseEbcdicDigits (hdrSize (slice data offset 60)) 10 with
      | none => left; simp
      | some hsize =>
        simp only [Res.ofOption_some, Res.ok_bind]
        split
        · rcases bsdName_cases (parseEbcdicDigits ((hdrName (slice data offset 60)).drop 3) 10) data (offset + 60) hsize hl h1 with h | ⟨n, nm, -, h3, h4, -, h5⟩
          · left; simp [h]
          · simp only [h5, Res.ok_bind]
            rcases skipData_cases (offset + 60) hsize (by omega) with h | ⟨nx, h6, h7, -⟩
            · left; simp [h]
            · right
              simp only [h6, Res.ok_bind]
              exact ⟨_, _, rfl, h1, rfl, rfl, by omega, by simp only; omega, by simp only; omega⟩
        · simp only [Res.ok_bind]
          rcases skipData_cases (offset + 60) hsize (by omega) with h | ⟨nx, h6, h7, -⟩
          · left; simp [h]
          · right
            simp only [h6, Res.ok_bind]
            exact ⟨_, _, rfl, h1, rfl, rfl, by omega, by simp only; omega, by simp only; omega⟩
  · left; simp [h2]

theorem parseAixBig_no_panic (data : List UInt8) (offset : Nat) : parseAixBig data offset ≠ .panic := by
  unfold parseAixBig ReadRef.read
  have h1 := readBytes_no_panic data offset 112
  cases hr : (ReadRef.readBytes data offset 112).1 with
  | panic => exact absurd hr h1
  | err => simp
  | ok h =>
    simp only [Res.bind_eq, Res.ok_bind]
    cases hp : parseDigits (slice h 108 4) 10 with
    | none => simp
    | some nl =>
      simp only [Res.ofOption_some, Res.ok_bind]
      have h2 := readBytes_no_panic data (ReadRef.readBytes data offset 112).2 nl
      cases hr2 : (ReadRef.readBytes data (ReadRef.readBytes data offset 112).2 nl).1 with
      | panic => exact absurd hr2 h2
      | err => simp
      | ok name =>
        simp only [Res.ok_bind]
        generalize (if (ReadRef.readBytes data (ReadRef.readBytes data offset 112).2 nl).2 % 2 ≠ 0 then _ else _) = o2
        have h3 := readBytes_no_panic data o2 2
        cases hr3 : (ReadRef.readBytes data o2 2).1 with
        | panic => exact absurd hr3 h3
        | err => simp
        | ok t =>
          simp only [Res.ok_bind]
          split
          · simp
          · cases parseDigits (slice h 0 20) 10 <;> simp

end Obj.Archive
