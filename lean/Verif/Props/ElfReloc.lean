import Verif.Proof.ElfReloc
import Verif.Proof.ElfChain

/-! # C21, C22, C23: CREL, RELR and relocation section chains -/

namespace Obj.Props
open Obj Obj.Elf Obj.Spec Obj.Spec.ElfRelocS Obj.ElfChain

/-! ## C22 -/

private theorem relrOffsets_length (w last : Nat) (ws : List Nat) : (relrOffsets w last ws).length ≤ max 1 (8 * w - 1) * ws.length := by
  induction ws generalizing last with
  | nil => simp [relrOffsets]
  | cons x xs ih =>
    unfold relrOffsets
    simp only [List.length_cons, Nat.mul_add, Nat.mul_one]
    split
    · have := ih x; simp only [List.length_cons]; omega
    · have h1 := ih ((last + (8 * w - 1) * w) % 256 ^ w)
      have h2 := List.length_filter_le (fun i => x.testBit i) (List.range' 1 (8 * w - 1))
      simp only [List.length_append, List.length_map, List.length_range'] at *
      omega

/-- C22: iterating the words of a RELR section (of 4 or 8 bytes) yields exactly the offsets that the generic ABI
describes: an even word is an address, an odd word is a bitmap for the words that follow; addresses wrap around.  The
iteration ends, without panicking, after at most 31 or 63 offsets for each word. -/
theorem C22_relr (w : Nat) (hw : w = 4 ∨ w = 8) (words : List Nat) (h : ∀ x ∈ words, x < 256 ^ w) :
    Runs (relrNext w) (RelrIter.new words) (relrOffsets w 0 words) .done ∧
      (relrOffsets w 0 words).length ≤ (8 * w - 1) * words.length := by
  constructor
  · have h0 : (0 : Nat) < 256 ^ w := Nat.pow_pos (by decide)
    have := relr_runs w (RelrIter.new words) h0 h
    have e : relrOut w (RelrIter.new words) = relrOffsets w 0 words := by
      simp [relrOut, RelrIter.new, relrPend]
    rwa [e] at this
  · have := relrOffsets_length w 0 words
    rcases hw with rfl | rfl <;> simpa using this

example : relrOffsets 8 0 [0x1000, 0b1011, 0xffffffffffffffff] =
    [0x1000, 0x1008, 0x1018] ++ (List.range 63).map (fun i => 0x1008 + 63 * 8 + i * 8) := by decide +kernel

example : relrOffsets 4 0 [0xfffffffc, 0b111] = [0xfffffffc, 0, 4] := by decide +kernel

/-! ## C21 -/

private theorem crel_parse_no_panic (s : CrelIter) : s.parse ≠ .panic := by
  have hd : ∀ p d, crelDelta p d ≠ .panic := by
    intro p d
    unfold crelDelta
    split
    · have := readSleb_no_panic d
      match hr : Bytes.readSleb d with
      | (.ok v, d') => simp
      | (.err, d') => simp
      | (.panic, d') => rw [hr] at this; simp at this
    · simp
  have ho : ∀ f b d, crelOffset f b d ≠ .panic := by
    intro f b d
    unfold crelOffset
    simp only
    split
    · have := readUleb_no_panic d
      match hr : Bytes.readUleb d with
      | (.ok v, d') => simp
      | (.err, d') => simp
      | (.panic, d') => rw [hr] at this; simp at this
    · simp
  have bnp : ∀ {α β : Type} {x : Res α} {f : α → Res β}, x ≠ .panic → (∀ a, x = .ok a → f a ≠ .panic) → x.bind f ≠ .panic := by
    intro α β x f hx hf
    cases x with
    | ok a => exact hf a rfl
    | err => simp
    | panic => exact absurd rfl hx
  unfold CrelIter.parse
  split
  · simp
  · simp only [Res.bind_eq]
    refine bnp (ho _ _ _) fun a _ => bnp (hd _ _) fun a _ => bnp (hd _ _) fun a _ => bnp (hd _ _) fun a _ => by simp

/-- C21: iterating compact relocations, on any data, ends without panicking after at most as many relocations as the header
says, exactly that many unless there is an error; after an error there is nothing more. -/
theorem C21_terminates (s : CrelIter) :
    (∃ xs e, Runs crelNext s xs e ∧ xs.length ≤ s.count ∧ e ≠ .panic ∧ (e = .done → xs.length = s.count)) ∧
    (∀ s', crelNext s = (.err, s') → crelNext s' = (.ok none, s')) := by
  constructor
  · generalize hc : s.count = n
    induction n generalizing s with
    | zero =>
      refine ⟨[], .done, .done (s' := s) ?_, by simp, by simp, by simp⟩
      unfold crelNext; rw [if_pos hc]
    | succ n ih =>
      have hnp := crel_parse_no_panic s
      cases hp : s.parse with
      | panic => exact absurd hp hnp
      | err =>
        refine ⟨[], .err, .err (s' := { s with count := 0 }) ?_, by simp, by simp, by simp⟩
        unfold crelNext; rw [if_neg (by omega), hp]
      | ok p =>
        obtain ⟨r, d⟩ := p
        obtain ⟨xs, e, h1, h2, h3, h4⟩ := ih { s with data := d, count := s.count - 1, state := r } (by simp [hc])
        refine ⟨r :: xs, e, .item (s' := { s with data := d, count := s.count - 1, state := r }) (x := r) ?_ h1, by simp; omega, h3,
          fun he => by simp [h4 he]⟩
        unfold crelNext; rw [if_neg (by omega), hp]
  · intro s' h
    have h0 : s'.count = 0 := by
      unfold crelNext at h
      split at h
      · simp at h
      · split at h <;> simp at h
        rw [← h]
    unfold crelNext
    rw [if_pos h0]

/-- C21: the header is an unsigned LEB128 number that holds the number of relocations, whether there are addends, and the
shift.  Reading it fails, rather than panics, if it is not one. -/
theorem C21_header (count : Nat) (rela : Bool) (shift : Nat) (hc : count < 2 ^ 61) (hs : shift < 4) (g tl data : List UInt8)
    (hg : LebGroup g) (hl : g.length ≤ 10) (hv : ulebValue g = count * 8 + (if rela then 4 else 0) + shift) :
    CrelIter.new (g ++ tl) = .ok ⟨tl, count, if rela then 3 else 2, shift, rela, ⟨0, 0, 0, 0⟩⟩ ∧ CrelIter.new data ≠ .panic := by
  constructor
  · unfold CrelIter.new
    have hlt : count * 8 + (if rela then 4 else 0) + shift < U64 := by cases rela <;> simp <;> omega
    rw [(readUleb_ok_iff (g ++ tl) _ tl).2 ⟨g, rfl, hg, hl, hv, hlt⟩]
    simp only
    have e3 : ∀ n : Nat, n &&& 3 = n % 4 := fun n => Nat.and_two_pow_sub_one_eq_mod n 2
    have e4 : ∀ n : Nat, (n &&& 4 ≠ 0) ↔ n / 4 % 2 = 1 := by
      intro n
      have : (n &&& 4 = 0) ↔ n.testBit 2 = false := by
        constructor
        · intro h
          have := congrArg (fun n => Nat.testBit n 2) h
          simpa [Nat.testBit_and, show (4 : Nat).testBit 2 = true from rfl] using this
        · intro h
          apply Nat.eq_of_testBit_eq
          intro i
          rw [Nat.testBit_and, show (4 : Nat) = 2 ^ 2 from rfl, Nat.testBit_two_pow]
          by_cases hi : 2 = i
          · subst hi; simp [h]
          · simp [hi]
      rw [Ne, this, Nat.testBit_eq_decide_div_mod_eq]
      simp
    generalize hn : count * 8 + (if rela then 4 else 0) + shift = n
    have hcount : n >>> 3 = count := by
      rw [Nat.shiftRight_eq_div_pow, ← hn]; cases rela <;> simp <;> omega
    have hshift : n &&& 3 = shift := by rw [e3, ← hn]; cases rela <;> simp <;> omega
    have hrela : (n &&& 4 ≠ 0) ↔ rela = true := by
      rw [e4, ← hn]; cases rela <;> simp <;> omega
    cases rela with
    | true =>
      have h4 := hrela.2 rfl
      rw [hcount, hshift, if_pos h4]
      simp [bne_iff_ne.2 h4]
    | false =>
      have h4 : n &&& 4 = 0 := by
        by_cases h : n &&& 4 = 0
        · exact h
        · exact absurd (hrela.1 h) (by simp)
      rw [hcount, hshift, if_neg (by simp [h4])]
      simp [h4]
  · unfold CrelIter.new
    have := readUleb_no_panic data
    match hr : Bytes.readUleb data with
    | (.ok v, d') => simp
    | (.err, d') => simp
    | (.panic, d') => rw [hr] at this; simp at this

/-- C21: iterating the encoding of any list of deltas (in any LEB128 encoding, followed by anything) yields exactly the
relocations they describe, with modular arithmetic, and ends. -/
theorem C21_decode (rela : Bool) (shift : Nat) (hs : shift < 4) (ds : List Delta) (hn : ds.length < 2 ^ 61) (g bytes tl : List UInt8)
    (hg : LebGroup g) (hl : g.length ≤ 10) (hv : ulebValue g = ds.length * 8 + (if rela then 4 else 0) + shift)
    (hb : EncodesDeltas rela ds bytes) :
    ∃ s, CrelIter.new (g ++ (bytes ++ tl)) = .ok s ∧ s.count = ds.length ∧ s.isRela = rela ∧
      Runs crelNext s (relocsOf shift ⟨0, 0, 0, 0⟩ ds) .done := by
  obtain ⟨h, -⟩ := C21_header ds.length rela shift hn hs g (bytes ++ tl) [] hg hl hv
  refine ⟨_, h, rfl, rfl, ?_⟩
  have h0 : CrelFits (⟨0, 0, 0, 0⟩ : Crel) := by unfold CrelFits; decide
  exact crel_runs ds bytes tl _ hb h0 rfl (Nat.le_of_lt_succ hs) rfl rfl

private theorem ulebG (v : Nat) (hv : v < U64) (b : UInt8) (hb : 128 ≤ b.toNat) :
    LebGroup (b :: uleb v) ∧ (b :: uleb v).length ≤ 11 ∧ ulebValue (b :: uleb v) = b.toNat % 128 + 128 * v := by
  obtain ⟨h1, h2, h3⟩ := uleb_spec v hv
  refine ⟨?_, by simp; omega, by unfold ulebValue; rw [h3]⟩
  cases hu : uleb v with
  | nil => rw [hu] at h1; exact absurd h1 id
  | cons c cs => rw [hu] at h1; exact ⟨hb, h1⟩

private theorem encodeOpt_spec (o : Option Int) (h : ∀ v, o = some v → -2 ^ 63 ≤ v ∧ v < 2 ^ 63) : EncodesS o (encodeOpt o) := by
  cases o with
  | none => rfl
  | some v =>
    obtain ⟨h1, h2⟩ := h v rfl
    have := readSleb_sleb v (by omega) (by omega) []
    obtain ⟨g, hg1, hg2, hg3, hg4, -⟩ := (readSleb_ok_iff _ _ _).1 this
    simp at hg1
    show LebGroup (sleb v) ∧ slebValue (sleb v) = v ∧ (sleb v).length ≤ 10 ∧ _ ∧ _
    rw [hg1]
    first | exact ⟨hg2, hg4, hg3, h1, h2⟩ | exact ⟨hg2, hg3, hg4, h1, h2⟩ | exact ⟨hg2, hg4.symm, hg3, h1, h2⟩

private theorem encodeDelta_spec (rela : Bool) (d : Delta) (ho : d.offset < 2 ^ 64) (hs : ∀ v, d.sym = some v → -2 ^ 63 ≤ v ∧ v < 2 ^ 63)
    (ht : ∀ v, d.type = some v → -2 ^ 63 ≤ v ∧ v < 2 ^ 63) (ha : ∀ v, d.addend = some v → -2 ^ 63 ≤ v ∧ v < 2 ^ 63)
    (hna : rela = false → d.addend = none) : EncodesDelta rela d (encodeDelta rela d) := by
  have hflag : d.flags < 2 ^ (if rela then 3 else 2) := by
    cases rela with
    | true => unfold Delta.flags; simp only [if_true]; repeat' split
              all_goals omega
    | false => unfold Delta.flags; rw [hna rfl]; simp; repeat' split
               all_goals omega
  refine ⟨encodeFirst (if rela then 3 else 2) d, encodeOpt d.sym, encodeOpt d.type, encodeOpt d.addend, rfl, ?_⟩
  have key : LebGroup (encodeFirst (if rela then 3 else 2) d) ∧ (encodeFirst (if rela then 3 else 2) d).length ≤ 11 ∧
      ulebValue (encodeFirst (if rela then 3 else 2) d) = d.offset * 2 ^ (if rela then 3 else 2) + d.flags := by
    generalize hfb : (if rela then 3 else 2) = fb at *
    have hfb' : fb = 2 ∨ fb = 3 := by rw [← hfb]; split <;> simp
    unfold encodeFirst
    split
    · rename_i hlt
      have h128 : d.offset * 2 ^ fb + d.flags < 128 := by rcases hfb' with rfl | rfl <;> omega
      have hb : (UInt8.ofNat (d.offset * 2 ^ fb + d.flags)).toNat = d.offset * 2 ^ fb + d.flags := by
        rw [UInt8.toNat_ofNat']; omega
      refine ⟨?_, by simp, ?_⟩
      · unfold LebGroup; rw [hb]; exact h128
      · simp only [ulebValue, hb]; omega
    · have hb : (UInt8.ofNat (128 + d.offset % 2 ^ (7 - fb) * 2 ^ fb + d.flags)).toNat = 128 + d.offset % 2 ^ (7 - fb) * 2 ^ fb + d.flags := by
        rw [UInt8.toNat_ofNat']; rcases hfb' with rfl | rfl <;> omega
      obtain ⟨h1, h2, h3⟩ := ulebG (d.offset / 2 ^ (7 - fb)) (by rcases hfb' with rfl | rfl <;> omega)
        (UInt8.ofNat (128 + d.offset % 2 ^ (7 - fb) * 2 ^ fb + d.flags)) (by rw [hb]; omega)
      refine ⟨h1, h2, ?_⟩
      rw [h3, hb]
      rcases hfb' with rfl | rfl <;> omega
  obtain ⟨k1, k2, k3⟩ := key
  refine ⟨k1, k2, k3, ?_, encodeOpt_spec _ hs, encodeOpt_spec _ ht, encodeOpt_spec _ ha, hna⟩
  rw [k3]
  cases rela <;> simp at hflag ⊢ <;> omega

private theorem deltaOf_apply (rela : Bool) (shift : Nat) (hs : shift < 4) (prev r : Crel) (hp : prev.offset < 2 ^ 64) (hpf : CrelFits prev) (hrf : CrelFits r)
    (hr : r.offset < 2 ^ 64) (hna : rela = false → r.addend = 0 ∧ prev.addend = 0)
    (hd : ((r.offset + 2 ^ 64 - prev.offset) % 2 ^ 64) % 2 ^ shift = 0) : (deltaOf rela shift prev r).apply shift prev = r := by
  obtain ⟨p1, p2, p3, p4⟩ := hpf
  obtain ⟨r1, r2, r3, r4⟩ := hrf
  have e1 : (prev.offset + ((r.offset + 2 ^ 64 - prev.offset) % 2 ^ 64) / 2 ^ shift * 2 ^ shift) % 2 ^ 64 = r.offset := by
    have : ((r.offset + 2 ^ 64 - prev.offset) % 2 ^ 64) / 2 ^ shift * 2 ^ shift = (r.offset + 2 ^ 64 - prev.offset) % 2 ^ 64 :=
      Nat.div_mul_cancel (Nat.dvd_of_mod_eq_zero hd)
    rw [this]; omega
  have e2 : (((prev.sym : Int) + (if r.sym = prev.sym then none else some ((r.sym : Int) - prev.sym) : Option Int).getD 0) % 2 ^ 32).toNat = r.sym := by
    split
    · simp only [Option.getD_none]; omega
    · simp only [Option.getD_some]; omega
  have e3 : (((prev.type : Int) + (if r.type = prev.type then none else some ((r.type : Int) - prev.type) : Option Int).getD 0) % 2 ^ 32).toNat = r.type := by
    split
    · simp only [Option.getD_none]; omega
    · simp only [Option.getD_some]; omega
  have e4 : (prev.addend + (if rela = false ∨ r.addend = prev.addend then none else some ((r.addend - prev.addend + 2 ^ 63) % 2 ^ 64 - 2 ^ 63) : Option Int).getD 0 + 2 ^ 63) % 2 ^ 64 - 2 ^ 63 = r.addend := by
    split
    · rename_i h
      simp only [Option.getD_none]
      rcases h with h | h
      · obtain ⟨h1, h2⟩ := hna h
        omega
      · omega
    · simp only [Option.getD_some]; omega
  unfold deltaOf Delta.apply
  simp only [e1, e2, e3, e4]

/-- The deltas between successive relocations. -/
private def deltasOf (rela : Bool) (shift : Nat) : Crel → List Crel → List Delta
  | _, [] => []
  | prev, r :: rs => deltaOf rela shift prev r :: deltasOf rela shift r rs

private theorem crels_spec (rela : Bool) (shift : Nat) (hs : shift < 4) (prev : Crel) (rs : List Crel) (hp : prev.offset < 2 ^ 64) (hpf : CrelFits prev)
    (hna : rela = false → prev.addend = 0) (he : Encodable rela shift prev rs) :
    EncodesDeltas rela (deltasOf rela shift prev rs) (encodeCrels rela shift prev rs) ∧
      relocsOf shift prev (deltasOf rela shift prev rs) = rs ∧ (deltasOf rela shift prev rs).length = rs.length := by
  induction rs generalizing prev with
  | nil => exact ⟨.nil, rfl, rfl⟩
  | cons r rs ih =>
    obtain ⟨h1, h2, h3, h4, h5, h6, h7, h8⟩ := he
    have hrf : CrelFits r := ⟨h2, h3, h4, h5⟩
    obtain ⟨i1, i2, i3⟩ := ih r h1 hrf h6 h8
    have happ := deltaOf_apply rela shift hs prev r hp hpf hrf h1 (fun h => ⟨h6 h, hna h⟩) h7
    refine ⟨.cons (encodeDelta_spec rela _ ?_ ?_ ?_ ?_ ?_) i1, ?_, ?_⟩
    · unfold deltaOf
      simp only
      exact Nat.lt_of_le_of_lt (Nat.div_le_self _ _) (Nat.mod_lt _ (Nat.two_pow_pos _))
    · intro v hv
      unfold deltaOf at hv
      simp only at hv
      split at hv
      · simp at hv
      · obtain ⟨p1, p2, p3, p4⟩ := hpf
        cases hv
        omega
    · intro v hv
      unfold deltaOf at hv
      simp only at hv
      split at hv
      · simp at hv
      · obtain ⟨p1, p2, p3, p4⟩ := hpf
        cases hv
        omega
    · intro v hv
      unfold deltaOf at hv
      simp only at hv
      split at hv
      · simp at hv
      · cases hv
        omega
    · intro h
      unfold deltaOf
      simp [h]
    · simp only [deltasOf, relocsOf, happ, i2]
    · simp [deltasOf, i3]

/-- C21: any list of relocations whose offset deltas are multiples of `2^shift`, encoded as a CREL section (as LLVM does),
is read back as the same list, whatever follows the section. -/
theorem C21_round_trip (rela : Bool) (shift : Nat) (hs : shift < 4) (rs : List Crel) (hn : rs.length < 2 ^ 61) (tl : List UInt8)
    (he : Encodable rela shift ⟨0, 0, 0, 0⟩ rs) :
    ∃ s, CrelIter.new (crelSection rela shift rs ++ tl) = .ok s ∧ s.count = rs.length ∧ s.isRela = rela ∧ Runs crelNext s rs .done := by
  obtain ⟨h1, h2, h3⟩ := crels_spec rela shift hs ⟨0, 0, 0, 0⟩ rs (by decide) ⟨by decide, by decide, by decide, by decide⟩ (fun _ => rfl) he
  obtain ⟨u1, u2, u3⟩ := uleb_spec (rs.length * 8 + (if rela then 4 else 0) + shift) (by cases rela <;> simp <;> omega)
  obtain ⟨s, s1, s2, s3, s4⟩ := C21_decode rela shift hs _ (by omega) _ _ tl u1 u2 (by rw [u3, h3]) h1
  refine ⟨s, ?_, by omega, s3, by rw [← h2]; exact s4⟩
  unfold crelSection
  rw [List.append_assoc]; exact s1

example : Encodable true 2 ⟨0, 0, 0, 0⟩ [⟨0x1000, 3, 1, -4⟩, ⟨0xff8, 3, 2, 2 ^ 62⟩, ⟨0xfffffffffffffffc, 1, 2, -2 ^ 63⟩] := by
  unfold Encodable Encodable Encodable Encodable; decide +kernel

/-! ## C23 -/

/-- C23: parsing the relocation sections of any section table does not panic; it fails exactly if a relocation section that
uses the given symbol table has a section index out of range, or of another relocation section, in `sh_info`. -/
theorem C23_parse (t : SectionTable) (sym : Nat) :
    relocationSections t sym ≠ .panic ∧
    (relocationSections t sym = .err ↔ ∃ (j : Nat) (s : Shdr), t.sections[j]? = some s ∧ IsReloc s ∧ s.link = sym ∧ s.info ≠ 0 ∧
      (t.sections.length ≤ s.info ∨ ∃ s', t.sections[s.info]? = some s' ∧ IsReloc s')) := by
  obtain ⟨h1, h2⟩ := loop_spec t sym t.sections.length _ (Nat.le_refl _) (inv_init t.sections sym)
  have hbj : ∀ j, Bad t.sections sym j → j < t.sections.length := by
    rintro j ⟨s, hs, -⟩
    exact (List.getElem?_eq_some_iff.1 hs).1
  by_cases hb : ∃ j, j < t.sections.length ∧ Bad t.sections sym j
  · have := h1 hb
    unfold relocationSections
    rw [this]
    refine ⟨by simp, fun _ => ?_, fun _ => rfl⟩
    obtain ⟨j, -, s, hs⟩ := hb
    exact ⟨j, s, hs⟩
  · obtain ⟨R', e1, -⟩ := h2 hb
    unfold relocationSections
    rw [e1]
    refine ⟨by simp, by simp, ?_⟩
    rintro ⟨j, s, hs⟩
    exact absurd ⟨j, hbj j ⟨s, hs⟩, ⟨s, hs⟩⟩ hb

/-- C23: following the chain from any section, in any file whose relocation sections are accepted, visits only relocation
sections, in increasing order (so that it ends), all of which apply to that section (or, starting at a relocation section,
to the same section as that one). -/
theorem C23_links (t : SectionTable) (sym : Nat) (R : List Nat) (hR : relocationSections t sym = .ok R) :
    (∀ i j, relocGet R i = some j →
      Applies t.sections sym i j ∨
      (∃ s, t.sections[i]? = some s ∧ IsReloc s ∧ Applies t.sections sym s.info i ∧ Applies t.sections sym s.info j ∧ i < j)) ∧
    (∀ i, ∃ js, Chain (relocGet R) i js ∧ js.Pairwise (· < ·) ∧ js.length < t.sections.length + 1) := by
  obtain ⟨h1, h2⟩ := loop_spec t sym t.sections.length _ (Nat.le_refl _) (inv_init t.sections sym)
  have hI : Inv t.sections sym 0 R := by
    by_cases hb : ∃ j, j < t.sections.length ∧ Bad t.sections sym j
    · have := h1 hb
      unfold relocationSections at hR
      rw [this] at hR; simp at hR
    · obtain ⟨R', e1, e2⟩ := h2 hb
      unfold relocationSections at hR
      rw [e1] at hR; cases hR; exact e2
  obtain ⟨hl, hI⟩ := hI
  have hlink : ∀ i j, relocGet R i = some j →
      Applies t.sections sym i j ∨
      (∃ s, t.sections[i]? = some s ∧ IsReloc s ∧ Applies t.sections sym s.info i ∧ Applies t.sections sym s.info j ∧ i < j) := by
    intro i j h
    unfold relocGet at h
    split at h
    · rename_i x hx
      split at h
      · rename_i hx0
        cases h
        have hil : i < t.sections.length := by
          have := (List.getElem?_eq_some_iff.1 hx).1; omega
        have hs := List.getElem?_eq_getElem hil
        generalize t.sections[i] = s at hs
        obtain ⟨a, b, c⟩ := hI i s hs
        by_cases hr : IsReloc s
        · by_cases hc : s.link = sym ∧ s.info ≠ 0
          · have := a hr (by omega) hc.1 hc.2
            rw [hx] at this
            cases this
            right
            rcases nx_cases t.sections sym s.info (i + 1) with h | ⟨h3, h4⟩
            · exact absurd h hx0
            · exact ⟨s, hs, hr, ⟨s, hs, hr, hc.1, rfl, hc.2⟩, h4, by omega⟩
          · have := b hr (by
              by_cases h5 : s.link = sym
              · right; right
                by_cases h6 : s.info = 0
                · exact h6
                · exact absurd ⟨h5, h6⟩ hc
              · exact .inr (.inl h5))
            rw [hx] at this; cases this; exact absurd rfl hx0
        · have := c hr
          rw [hx] at this; cases this
          left
          rcases nx_cases t.sections sym i 0 with h | ⟨-, h4⟩
          · exact absurd h hx0
          · exact h4
      · simp at h
    · simp at h
  refine ⟨hlink, ?_⟩
  have hlt : ∀ i j, relocGet R i = some j → j < t.sections.length := by
    intro i j h
    rcases hlink i j h with ⟨s, hs, -⟩ | ⟨_, _, _, _, ⟨s, hs, -⟩, -⟩ <;> exact (List.getElem?_eq_some_iff.1 hs).1
  -- from a relocation section the indices increase
  have hrel : ∀ n i, t.sections.length ≤ i + n → (∀ k, relocGet R i = some k → i < k) →
      ∃ js, Chain (relocGet R) i js ∧ js.Pairwise (· < ·) ∧ (∀ j ∈ js, i < j) ∧ js.length ≤ n := by
    intro n
    induction n with
    | zero =>
      intro i hi hk
      cases hg : relocGet R i with
      | none => exact ⟨[], .nil hg, .nil, by simp, by simp⟩
      | some j =>
        have := hk j hg
        have := hlt i j hg
        omega
    | succ n ih =>
      intro i hi hk
      cases hg : relocGet R i with
      | none => exact ⟨[], .nil hg, .nil, by simp, by simp⟩
      | some j =>
        have hij := hk j hg
        have hjr : ∃ s, t.sections[j]? = some s ∧ IsReloc s := by
          rcases hlink i j hg with ⟨s, hs, hr, -⟩ | ⟨_, _, _, _, ⟨s, hs, hr, -⟩, -⟩ <;> exact ⟨s, hs, hr⟩
        obtain ⟨js, c1, c2, c3, c4⟩ := ih j (by omega) (by
          intro k hjk
          rcases hlink j k hjk with ⟨s, hs, hr, e1, e2, e3⟩ | ⟨_, _, _, _, _, h⟩
          · -- a relocation section is not the target of another one
            exfalso
            obtain ⟨s', hs', hr'⟩ := hjr
            have hbad : Bad t.sections sym k := ⟨s, hs, hr, e1, by omega, .inr ⟨s', by rw [e2]; exact hs', hr'⟩⟩
            have hkl := hlt j k hjk
            have := h1 ⟨k, hkl, hbad⟩
            unfold relocationSections at hR
            rw [this] at hR; simp at hR
          · exact h)
        exact ⟨j :: js, .cons hg c1, List.pairwise_cons.2 ⟨c3, c2⟩, by
          intro x hx
          rcases List.mem_cons.1 hx with rfl | hx
          · exact hij
          · have := c3 x hx; omega, by simp; omega⟩
  intro i
  cases hg : relocGet R i with
  | none => exact ⟨[], .nil hg, .nil, by simp⟩
  | some j =>
    have hjr : ∃ s, t.sections[j]? = some s ∧ IsReloc s := by
      rcases hlink i j hg with ⟨s, hs, hr, -⟩ | ⟨_, _, _, _, ⟨s, hs, hr, -⟩, -⟩ <;> exact ⟨s, hs, hr⟩
    have hjl := hlt i j hg
    obtain ⟨js, c1, c2, c3, c4⟩ := hrel (t.sections.length - j) j (by omega) (by
      intro k hjk
      rcases hlink j k hjk with ⟨s, hs, hr, e1, e2, e3⟩ | ⟨_, _, _, _, _, h⟩
      · exfalso
        obtain ⟨s', hs', hr'⟩ := hjr
        have hbad : Bad t.sections sym k := ⟨s, hs, hr, e1, by omega, .inr ⟨s', by rw [e2]; exact hs', hr'⟩⟩
        have := h1 ⟨k, hlt j k hjk, hbad⟩
        unfold relocationSections at hR
        rw [this] at hR; simp at hR
      · exact h)
    refine ⟨j :: js, .cons hg c1, List.pairwise_cons.2 ⟨c3, c2⟩, ?_⟩
    have hj0 : j ≠ 0 := by
      intro h0
      unfold relocGet at hg
      split at hg
      · split at hg
        · cases hg; exact absurd h0 (by assumption)
        · simp at hg
      · simp at hg
    simp; omega

/-- C23: if section 0 is not a relocation section, the chain of a section that is not a relocation section is exactly the
list of the relocation sections that apply to it, in order. -/
theorem C23_chain (t : SectionTable) (sym : Nat) (R : List Nat) (hR : relocationSections t sym = .ok R)
    (h0 : ∀ s, t.sections[0]? = some s → ¬ IsReloc s) (i : Nat) (s : Shdr) (hs : t.sections[i]? = some s) (hr : ¬ IsReloc s) :
    Chain (relocGet R) i ((List.range t.sections.length).filter fun j => decide (Applies t.sections sym i j)) := by
  obtain ⟨h1, h2⟩ := loop_spec t sym t.sections.length _ (Nat.le_refl _) (inv_init t.sections sym)
  have hI : Inv t.sections sym 0 R := by
    by_cases hb : ∃ j, j < t.sections.length ∧ Bad t.sections sym j
    · have := h1 hb
      unfold relocationSections at hR
      rw [this] at hR; simp at hR
    · obtain ⟨R', e1, e2⟩ := h2 hb
      unfold relocationSections at hR
      rw [e1] at hR; cases hR; exact e2
  obtain ⟨hl, hI⟩ := hI
  have hn0 : ¬ Applies t.sections sym i 0 := by
    rintro ⟨s', e1, e2, -⟩; exact h0 s' e1 e2
  have hgen : ∀ n m k, m + n = t.sections.length → R[k]? = some (nx t.sections sym i m) →
      Chain (relocGet R) k ((List.range' m n).filter fun j => decide (Applies t.sections sym i j)) := by
    intro n
    induction n with
    | zero =>
      intro m k hm hk
      apply Chain.nil
      unfold relocGet
      have : nx t.sections sym i m = 0 := by unfold nx; rw [show t.sections.length - m = 0 by omega]; rfl
      rw [hk, this]; simp
    | succ n ih =>
      intro m k hm hk
      rw [nx_step _ _ _ _ (by omega)] at hk
      rw [List.range'_succ, List.filter_cons]
      by_cases ha : Applies t.sections sym i m
      · rw [if_pos ha] at hk
        rw [if_pos (by simpa using ha)]
        have hm0 : m ≠ 0 := by rintro rfl; exact hn0 ha
        refine .cons (by unfold relocGet; rw [hk]; simp [hm0]) (ih (m + 1) m (by omega) ?_)
        obtain ⟨s', e1, e2, e3, e4, e5⟩ := ha
        have := (hI m s' e1).1 e2 (by omega) e3 (by omega)
        rw [this, e4]
      · rw [if_neg ha] at hk
        rw [if_neg (by simpa using ha)]
        exact ih (m + 1) k (by omega) hk
  rw [List.range_eq_range']
  exact hgen t.sections.length 0 i (by omega) ((hI i s hs).2.2 hr)

private def exSec (type link info : Nat) : Shdr := ⟨0, type, 0, 0, 0, 0, link, info, 0, 0⟩

example : relocationSections ⟨[exSec 0 0 0, exSec 1 0 0, exSec 4 5 1, exSec 9 5 1, exSec 4 6 1, exSec 2 0 0], none⟩ 5 = .ok [0, 2, 3, 0, 0, 0] := by
  decide

example : relocationSections ⟨[exSec 0 0 0, exSec 1 0 0, exSec 4 5 3, exSec 9 5 2, exSec 4 6 1, exSec 2 0 0], none⟩ 5 = .err := by decide

end Obj.Props
