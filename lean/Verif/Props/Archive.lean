import Verif.Proof.Archive
import Verif.Proof.Endian
import Verif.Proof.Elf

/-! # C15, C16, C50, C51: archives -/

namespace Obj.Props
open Obj Obj.Archive Obj.Spec.ArchiveS

/-! ## C16: numbers -/

/-- C16: a decimal or octal header field is read as the number written in it; anything else (no digit, other
characters, a number of 2^64 or more) is rejected. -/
theorem C16_number (fld : List UInt8) (radix : Nat) (hr : radix = 8 ∨ radix = 10) (n : Nat) :
    parseDigits fld radix = some n ↔ Number 0x30 0x20 radix fld n :=
  number_iff 0x30 0x20 radix (by omega) (by simp) fld n

/-- C16, z/OS: the same with EBCDIC digits and spaces. -/
theorem C16_ebcdic_number (fld : List UInt8) (radix : Nat) (hr : radix = 8 ∨ radix = 10) (n : Nat) :
    parseEbcdicDigits fld radix = some n ↔ Number 0xf0 0x40 radix fld n :=
  number_iff 0xf0 0x40 radix (by omega) (by simp) fld n

/-- C16: writing a number in decimal, padded with spaces to any width, reads back. -/
theorem C16_decimal_round_trip (n w : Nat) (hn : n < 2 ^ 64) : parseDigits (spaces w (decimal n)) 10 = some n :=
  parseDigits_decimal n w hn

example : parseDigits [0x31, 0x32, 0x20, 0x41] 10 = some 12 ∧ parseDigits [0x20, 0x31] 10 = none ∧
    parseDigits [0x37, 0x38] 8 = none ∧ parseEbcdicDigits [0xf1, 0xf7, 0x40] 8 = some 15 ∧
    -- 18446744073709551615 and 18446744073709551616
    parseDigits [49, 56, 52, 52, 54, 55, 52, 52, 48, 55, 51, 55, 48, 57, 53, 53, 49, 54, 49, 53] 10 = some (2 ^ 64 - 1) ∧
    parseDigits [49, 56, 52, 52, 54, 55, 52, 52, 48, 55, 51, 55, 48, 57, 53, 53, 49, 54, 49, 54] 10 = none := by decide

/-! ## C15: safety of iteration -/

private theorem next_no_panic (it : Iter) (hl : it.data.length < U64) (s : Members) : (next it s).1 ≠ .panic := by
  unfold next
  split
  · split
    · simp
    · rcases parseCommon_cases it.data _ it.names it.thin hl with h | ⟨m, nx, h, -⟩ <;> rw [h] <;> simp
  · simp
  · rename_i first rest
    unfold parseAixBigIndex
    cases parseDigits first 10 with
    | none => simp
    | some o =>
      simp only [Res.ofOption_some, Res.bind_eq, Res.ok_bind]
      have := parseAixBig_no_panic it.data o
      cases h : parseAixBig it.data o with
      | ok m => simp
      | err => simp
      | panic => exact absurd h this
  · split
    · simp
    · rcases parseZos_cases it.data _ hl with h | ⟨m, nx, h, -⟩ <;> rw [h] <;> simp

/-- What is left to read: positions up to the end, or index entries. -/
private def measure (d : Nat) : Members → Nat
  | .common o _ => d - o
  | .zos o _ => d - o
  | .aixBig idx => idx.length

private theorem next_item {it : Iter} (hl : it.data.length < U64) {s s' : Members} {m : Member}
    (h : next it s = (.ok (some m), s')) :
    match s with
    | .common o e => ∃ nx, s' = .common nx e ∧ o + 60 ≤ it.data.length ∧ m.header = slice it.data o 60 ∧ o + 60 ≤ nx ∧
        (m.offset = 0 ∨ (o + 60 ≤ m.offset ∧ m.offset + m.size ≤ nx))
    | .zos o e => ∃ nx, s' = .zos nx e ∧ o + 60 ≤ it.data.length ∧ m.header = slice it.data o 60 ∧ o + 60 ≤ nx ∧
        (m.offset = 0 ∨ (o + 60 ≤ m.offset ∧ m.offset + m.size ≤ nx))
    | .aixBig idx => ∃ first rest, idx = first :: rest ∧ s' = .aixBig rest ∧ parseAixBigIndex it.data first = .ok m := by
  cases s with
  | common o e =>
    simp only [next] at h
    split at h
    · simp at h
    · rcases parseCommon_cases it.data o it.names it.thin hl with h' | ⟨m', nx, h', h1, h2, -, h3, h4⟩
      · rw [h'] at h; simp at h
      · rw [h'] at h
        simp at h
        obtain ⟨rfl, rfl⟩ := h
        exact ⟨nx, rfl, h1, h2, h3, h4.imp And.left id⟩
  | aixBig idx =>
    cases idx with
    | nil => simp [next] at h
    | cons first rest =>
      simp only [next] at h
      cases hp : parseAixBigIndex it.data first with
      | ok m' =>
        rw [hp] at h; simp at h
        obtain ⟨rfl, rfl⟩ := h
        exact ⟨first, rest, rfl, rfl, hp⟩
      | err => rw [hp] at h; simp at h
      | panic => rw [hp] at h; simp at h
  | zos o e =>
    simp only [next] at h
    split at h
    · simp at h
    · rcases parseZos_cases it.data o hl with h' | ⟨m', nx, h', h1, h2, -, h3, h4⟩
      · rw [h'] at h; simp at h
      · rw [h'] at h
        simp at h
        obtain ⟨rfl, rfl⟩ := h
        exact ⟨nx, rfl, h1, h2, h3, Or.inr h4⟩

private theorem measure_lt {it : Iter} (hl : it.data.length < U64) {s s' : Members} {m : Member}
    (h : next it s = (.ok (some m), s')) :
    measure it.data.length s' < measure it.data.length s ∧
      (∀ o e, s = .common o e ∨ s = .zos o e → measure it.data.length s' + 60 ≤ measure it.data.length s) := by
  have := next_item hl h
  cases s with
  | common o e =>
    obtain ⟨nx, rfl, h1, -, h3, -⟩ := this
    simp only [measure]
    exact ⟨by omega, fun _ _ _ => by omega⟩
  | zos o e =>
    obtain ⟨nx, rfl, h1, -, h3, -⟩ := this
    simp only [measure]
    exact ⟨by omega, fun _ _ _ => by omega⟩
  | aixBig idx =>
    obtain ⟨first, rest, rfl, rfl, -⟩ := this
    simp [measure]

/-- C15: iterating the members of any archive that parses terminates without panicking, and once it has returned an
error it returns nothing more. -/
theorem C15_terminates (data : List UInt8) (hl : data.length < 2 ^ 64) (f : File) (hf : parse data = .ok f) :
    (∃ xs e, Runs (next f.iter) f.members xs e ∧ e ≠ .panic) ∧
    ∀ s s', next f.iter s = (.err, s') → (next f.iter s').1 = .ok none := by
  have hd : f.data = data := by
    unfold parse at hf
    cases hr : (ReadRef.readBytes data 0 8).1 with
    | err => rw [hr] at hf; simp at hf
    | panic => rw [hr] at hf; simp at hf
    | ok m =>
      rw [hr] at hf
      simp only [Res.bind_eq, Res.ok_bind] at hf
      split at hf
      · unfold parseAixBigFile at hf
        simp only [Res.bind_eq] at hf
        revert hf
        generalize hA : (ReadRef.read data 0 128).1 = A
        cases A with
        | err => simp
        | panic => simp
        | ok h =>
          simp only [Res.ok_bind]
          generalize Res.ofOption (parseDigits (slice h 48 20) 10) = B
          cases B with
          | err => simp
          | panic => simp
          | ok b =>
            simp only [Res.ok_bind]
            generalize (if 0 < b then _ else _ : Res (Nat × Nat)) = C
            cases C with
            | err => simp
            | panic => simp
            | ok c =>
              simp only [Res.ok_bind]
              generalize Res.ofOption (parseDigits (slice h 8 20) 10) = D
              cases D with
              | err => simp
              | panic => simp
              | ok d =>
                simp only [Res.ok_bind]
                split
                · intro h; simp at h; rw [← h]
                · generalize parseAixBig data d = E
                  cases E with
                  | err => simp
                  | panic => simp
                  | ok m =>
                    simp only [Res.ok_bind]
                    generalize m.data data = F
                    cases F with
                    | err => simp
                    | panic => simp
                    | ok g =>
                      simp only [Res.ok_bind]
                      generalize (Bytes.readSlice g 1 20).1 = G
                      cases G with
                      | err => simp
                      | panic => simp
                      | ok cb =>
                        simp only [Res.ok_bind]
                        generalize Res.ofOption (parseDigits cb.flatten 10) = H
                        cases H with
                        | err => simp
                        | panic => simp
                        | ok cnt =>
                          simp only [Res.ok_bind]
                          generalize (Bytes.readSlice (Bytes.readSlice g 1 20).2 20 cnt).1 = I
                          cases I with
                          | err => simp
                          | panic => simp
                          | ok ix => intro h; simp at h; rw [← h]
      · split at hf
        · unfold parseZosFile at hf
          rw [hr] at hf
          simp only [Res.bind_eq, Res.ok_bind] at hf
          split at hf
          · cases hz : parseZos data 8 with
            | err => rw [hz] at hf; simp at hf
            | panic => rw [hz] at hf; simp at hf
            | ok r =>
              rw [hz] at hf
              simp only [Res.ok_bind] at hf
              split at hf <;> (simp at hf; rw [← hf])
          · simp at hf; rw [← hf]
        · split at hf
          · generalize special data (decide (m = thinMagic)) 8 = S at hf
            cases S with
            | err => simp at hf
            | panic => simp at hf
            | ok s => simp at hf; rw [← hf]
          · simp at hf
  have hl' : f.iter.data.length < U64 := by simp only [File.iter, hd]; omega
  refine ⟨?_, ?_⟩
  · obtain ⟨xs, e, hr, -⟩ := Runs.exists_of_measure (next := next f.iter) (fun _ => True) (measure f.iter.data.length)
      (fun s x s' _ h => ⟨trivial, (measure_lt hl' h).1⟩) f.members trivial
    exact ⟨xs, e, hr, Runs.no_panic (fun _ => True) (fun _ _ _ _ _ => trivial) (fun s _ => next_no_panic _ hl' s) trivial hr⟩
  · intro s s' h
    unfold next at h
    split at h
    · split at h
      · simp at h
      · split at h <;> simp at h
        subst h; simp [next]
    · simp at h
    · split at h <;> simp at h
      subst h; simp [next]
    · split at h
      · simp at h
      · split at h <;> simp at h
        subst h; simp [next]

/-- C15: in common and z/OS archives, the members that are yielded lie one after the other in the file, each header and
each data range disjoint from all others and in order (from any starting point, in particular that of a parsed file). -/
theorem C15_layered (it : Iter) (hl : it.data.length < 2 ^ 64) (o e : Nat) (xs : List Member) (en : End) :
    (Runs (next it) (.common o e) xs en → Layered it.data o xs) ∧
    (Runs (next it) (.zos o e) xs en → Layered it.data o xs) := by
  have key : ∀ s, Runs (next it) s xs en → ∀ o, s = .common o e ∨ s = .zos o e → Layered it.data o xs := by
    intro s hr
    induction hr with
    | done => intros; trivial
    | err => intros; trivial
    | panic => intros; trivial
    | item h _ ih =>
      rintro o (rfl | rfl)
      · obtain ⟨nx, rfl, h1, h2, h3, h4⟩ := next_item hl h
        exact ⟨h1, h2, nx, h3, h4, ih nx (Or.inl rfl)⟩
      · obtain ⟨nx, rfl, h1, h2, h3, h4⟩ := next_item hl h
        exact ⟨h1, h2, nx, h3, h4, ih nx (Or.inr rfl)⟩
  exact ⟨fun h => key _ h o (Or.inl rfl), fun h => key _ h o (Or.inr rfl)⟩

/-- C15: in an AIX big archive one member is read for each entry of the index, in order, stopping at the first
invalid one. -/
theorem C15_aix (it : Iter) (hl : it.data.length < 2 ^ 64) (idx : List (List UInt8)) (xs : List Member) (en : End)
    (h : Runs (next it) (.aixBig idx) xs en) :
    xs.map Res.ok = (idx.take xs.length).map (fun i => (Res.ofOption (parseDigits i 10)).bind (parseAixBig it.data)) ∧
    xs.length ≤ idx.length ∧ (en = .done → xs.length = idx.length) := by
  generalize hs : Members.aixBig idx = s at h
  induction h generalizing idx with
  | done h =>
    subst hs
    cases idx with
    | nil => simp
    | cons a b =>
      simp only [next] at h
      split at h <;> simp at h
  | err h => simp
  | panic h => simp
  | item h _ ih =>
    subst hs
    obtain ⟨first, rest, rfl, rfl, hp⟩ := next_item hl h
    obtain ⟨h1, h2, h3⟩ := ih rest rfl
    refine ⟨?_, by simpa using h2, fun he => by simpa using h3 he⟩
    simp only [List.map_cons, List.length_cons, List.take_succ_cons, h1]
    congr 1
    exact hp.symm

/-- C15: a member's data is the bytes of its range, an error if the range is not in the file, and empty for thin
members. -/
theorem C15_data (m : Member) (data : List UInt8) :
    m.data data = if m.offset = 0 ∨ m.size = 0 then .ok []
      else if m.offset + m.size ≤ data.length then .ok (slice data m.offset m.size) else .err := by
  unfold Member.data
  by_cases h : m.offset = 0
  · rw [if_pos h, if_pos (Or.inl h)]
  · rw [if_neg h, readRef_readBytesAt_eq]
    by_cases h0 : m.size = 0
    · rw [if_pos (Or.inl h0), if_pos (Or.inr h0)]; simp [slice, h0]
    · rw [if_neg (by omega : ¬ (m.offset = 0 ∨ m.size = 0))]
      by_cases h1 : m.offset + m.size ≤ data.length
      · rw [if_pos (Or.inr h1), if_pos h1]
      · rw [if_neg h1, if_neg (by omega)]

private theorem bnp {α β : Type} {x : Res α} {f : α → Res β} (hx : x ≠ .panic) (hf : ∀ a, x = .ok a → f a ≠ .panic) :
    x.bind f ≠ .panic := by
  cases x with
  | ok a => exact hf a rfl
  | err => simp
  | panic => exact absurd rfl hx

private theorem ofOption_np {α : Type} (o : Option α) : Res.ofOption o ≠ .panic := by cases o <;> simp

private theorem data_np (m : Member) (data : List UInt8) : m.data data ≠ .panic := by
  rw [C15_data]; repeat' split
  all_goals simp

private theorem readSlice_np (d : List UInt8) (a b : Nat) : (Bytes.readSlice d a b).1 ≠ .panic := by
  unfold Bytes.readSlice; split <;> simp

private theorem parseMember_np (data names : List UInt8) (hl : data.length < U64) (thin : Bool) (tail : Nat) :
    parseMember data names thin tail ≠ .panic := by
  unfold parseMember
  split
  · rcases parseCommon_cases data tail names thin hl with h | ⟨m, nx, h, -⟩ <;> rw [h] <;> simp
  · simp

/-- C15: parsing any bytes as an archive does not panic. -/
theorem C15_parse_no_panic (data : List UInt8) (hl : data.length < 2 ^ 64) : parse data ≠ .panic := by
  have hpm := parseMember_np data (hl := hl)
  unfold parse
  simp only [Res.bind_eq]
  apply bnp (readBytes_no_panic _ _ _)
  intro m _
  split
  · unfold parseAixBigFile
    simp only [Res.bind_eq]
    apply bnp (readBytes_no_panic _ _ _); intro h _
    apply bnp (ofOption_np _); intro a _
    apply bnp
    · split
      · exact bnp (parseAixBig_no_panic _ _) (by simp)
      · apply bnp (ofOption_np _); intro b _
        split
        · exact bnp (parseAixBig_no_panic _ _) (by simp)
        · simp
    · intro c _
      apply bnp (ofOption_np _); intro d _
      split
      · simp
      · apply bnp (parseAixBig_no_panic _ _); intro m _
        apply bnp (data_np _ _); intro g _
        apply bnp (readSlice_np _ _ _); intro cb _
        apply bnp (ofOption_np _); intro n _
        exact bnp (readSlice_np _ _ _) (by simp)
  · split
    · unfold parseZosFile
      simp only [Res.bind_eq]
      apply bnp (readBytes_no_panic _ _ _); intro h _
      split
      · apply bnp
        · rcases parseZos_cases data 8 hl with h | ⟨m, nx, h, -⟩ <;> rw [h] <;> simp
        · rintro ⟨m, t⟩ _
          simp only
          split <;> simp
      · simp
    · split
      · apply bnp
        · unfold special
          simp only [Res.bind_eq]
          apply bnp (hpm _ _ _); rintro (_ | ⟨m, t⟩) _
          · simp
          · simp only
            split
            · apply bnp (hpm _ _ _); rintro (_ | ⟨m', t'⟩) _
              · simp
              · simp only
                split
                · exact bnp (data_np _ _) (by simp)
                · split
                  · unfold coffRest
                    simp only [Res.bind_eq]
                    apply bnp (hpm _ _ _); rintro (_ | ⟨m', t'⟩) _
                    · simp
                    · simp only
                      split
                      · apply bnp (data_np _ _); intro n _
                        apply bnp (hpm _ _ _); rintro (_ | ⟨m', t'⟩) _
                        · simp
                        · simp only; split <;> simp
                      · split <;> simp
                  · simp
            · split
              · unfold gnuNames
                simp only [Res.bind_eq]
                apply bnp (hpm _ _ _); rintro (_ | ⟨m', t'⟩) _
                · simp
                · simp only
                  split
                  · exact bnp (data_np _ _) (by simp)
                  · simp
              · split
                · exact bnp (data_np _ _) (by simp)
                · split
                  · simp
                  · split <;> simp
        · simp
      · simp

/-! ## C50: reading archives back -/

private theorem nameField_le {names : List UInt8} {e : Entry} {f : Form} (h : Storable names e f) : (nameField e f).length ≤ 16 := by
  obtain ⟨hi, hsz, hf⟩ := h
  cases f with
  | slash => have := hf.2.2; simp only [nameField, List.length_append, List.length_cons, List.length_nil]; omega
  | plain => exact hf.2.2
  | table offset => have := hf.2.2.1; simp only [nameField, List.length_cons]; omega
  | inline pad => have := hf.2; simp only [nameField, List.length_append, List.length_cons, List.length_nil]; omega

private theorem member_slice {names data pre post : List UInt8} {e : Entry} {f : Form} (h : Storable names e f)
    (hd : data = pre ++ (member false e f ++ post)) {p : Nat} (hp : p = pre.length) :
    slice data (p + 60 + ((content e f).length - e.body.length)) e.body.length = e.body ∧
    p + 60 + ((content e f).length - e.body.length) + e.body.length ≤ data.length := by
  have hnf := nameField_le h
  obtain ⟨hi, hsz, hf⟩ := h
  have hhl := length_header hnf hi hsz
  obtain ⟨front, hfr⟩ : ∃ front, content e f = front ++ e.body := by
    cases f with
    | inline pad => exact ⟨_, rfl⟩
    | slash => exact ⟨[], rfl⟩
    | plain => exact ⟨[], rfl⟩
    | table o => exact ⟨[], rfl⟩
  have hshape : data = (pre ++ header (nameField e f) e.info (content e f).length ++ front) ++ (e.body ++
        ((if (content e f).length % 2 = 1 then [0x0a] else []) ++ post)) := by
    rw [hd]
    simp only [member, padded, Bool.false_eq_true, if_false]
    simp only [hfr, List.append_assoc]
  have hoff : (pre ++ header (nameField e f) e.info (content e f).length ++ front).length =
      p + 60 + ((content e f).length - e.body.length) := by
    simp only [List.length_append, hhl, hp]
    rw [hfr]; simp
  refine ⟨by rw [hshape]; exact slice_of_append hoff rfl, ?_⟩
  rw [← hoff, hshape]; simp; omega

private theorem runs_members (names : List UInt8) (hn : names.length < U64) (thin : Bool) (es : List (Entry × Form))
    (hok : ∀ e ∈ es, Storable names e.1 e.2) (hthin : thin = true → ∀ e ∈ es, ¬ Reserved e.1.name ∧ ∀ pad, e.2 ≠ .inline pad)
    (pre : List UInt8) (hpre : 0 < pre.length) (hl : (pre ++ (es.map fun e => member thin e.1 e.2).flatten).length < U64) :
    ∃ xs, Runs (next ⟨pre ++ (es.map fun e => member thin e.1 e.2).flatten, names, thin⟩)
        (.common pre.length (pre ++ (es.map fun e => member thin e.1 e.2).flatten).length) xs .done ∧
      xs.map (fun m => (m.name, slice m.header 16 32, m.size, m.data (pre ++ (es.map fun e => member thin e.1 e.2).flatten))) =
        es.map (fun e => (e.1.name, e.1.info, e.1.body.length, .ok (if thin then [] else e.1.body))) := by
  induction es generalizing pre with
  | nil => exact ⟨[], .done (s' := .common pre.length pre.length) (by simp [next]), rfl⟩
  | cons e es ih =>
    have hmne : 0 < (member thin e.1 e.2).length := by
      simp [member, header]; omega
    have hdata : pre ++ (((e :: es)).map fun e => member thin e.1 e.2).flatten =
        (pre ++ member thin e.1 e.2) ++ (es.map fun e => member thin e.1 e.2).flatten := by simp
    have hdata2 : pre ++ (((e :: es)).map fun e => member thin e.1 e.2).flatten =
        pre ++ (member thin e.1 e.2 ++ (es.map fun e => member thin e.1 e.2).flatten) := by simp
    obtain ⟨xs, hr, hx⟩ := ih (fun e' he' => hok e' (by simp [he'])) (fun ht e' he' => hthin ht e' (by simp [he']))
      (pre ++ member thin e.1 e.2) (by simp; omega) (by rw [← hdata]; exact hl)
    have hp := parseCommon_member names e.1 e.2 (hok e (by simp)) pre ((es.map fun e => member thin e.1 e.2).flatten) thin
      (fun ht => hthin ht e (by simp)) (by rw [← hdata2]; exact hl) hn
    rw [← hdata2] at hp
    rw [← hdata] at hr hx
    refine ⟨_, .item (s' := .common (pre ++ member thin e.1 e.2).length _)
      (x := ⟨.common, header (nameField e.1 e.2) e.1.info (content e.1 e.2).length, e.1.name,
        if thin then 0 else pre.length + 60 + ((content e.1 e.2).length - e.1.body.length), e.1.body.length⟩) ?_ hr, ?_⟩
    · simp only [next]
      rw [if_neg (by rw [hdata2]; simp; omega), hp]
      simp
    · refine congr (congrArg List.cons ?_) hx
      have hst := hok e (by simp)
      have ⟨hi, hsz, hf⟩ := hst
      have hnf := nameField_le hst
      simp only [(hdr_fields hnf hi hsz).2.2.2, Prod.mk.injEq, true_and]
      cases thin with
      | true => simp [Member.data]
      | false =>
        simp only [Bool.false_eq_true, if_false]
        unfold Member.data
        simp only
        rw [if_neg (by omega), readRef_readBytesAt_eq]
        obtain ⟨m1, m2⟩ := member_slice hst hdata2 rfl
        rw [if_pos (Or.inr m2), m1]

private theorem s1 : "/".toUTF8.toList = [0x2f] := by decide +kernel
private theorem s2 : "//".toUTF8.toList = [0x2f, 0x2f] := by decide +kernel
private theorem s3 : "/SYM64/".toUTF8.toList = [0x2f, 0x53, 0x59, 0x4d, 0x36, 0x34, 0x2f] := by decide +kernel
private theorem s4 : "/<ECSYMBOLS>/".toUTF8.toList =
    [0x2f, 0x3c, 0x45, 0x43, 0x53, 0x59, 0x4d, 0x42, 0x4f, 0x4c, 0x53, 0x3e, 0x2f] := by decide +kernel

private theorem reserved_iff (n : List UInt8) : Reserved n ↔ n = [0x2f] ∨ n = [0x2f, 0x2f] ∨
    n = [0x2f, 0x53, 0x59, 0x4d, 0x36, 0x34, 0x2f] ∨
    n = [0x2f, 0x3c, 0x45, 0x43, 0x53, 0x59, 0x4d, 0x42, 0x4f, 0x4c, 0x53, 0x3e, 0x2f] ∨
    n = symdef ∨ n = symdef ++ sorted ∨ n = symdef64 ∨ n = symdef64 ++ sorted := by
  have e1 : "__.SYMDEF".toUTF8.toList = symdef := by decide +kernel
  have e2 : "__.SYMDEF SORTED".toUTF8.toList = symdef ++ sorted := by decide +kernel
  have e3 : "__.SYMDEF_64".toUTF8.toList = symdef64 := by decide +kernel
  have e4 : "__.SYMDEF_64 SORTED".toUTF8.toList = symdef64 ++ sorted := by decide +kernel
  unfold Reserved
  simp only [List.map_cons, List.map_nil, s1, s2, s3, s4, e1, e2, e3, e4, List.mem_cons, List.not_mem_nil, or_false]

/-- Reading a special member through `parse_member`. -/
private theorem pm_special {data pre post name info body names : List UInt8} {thin : Bool} {p : Nat}
    (hd : data = pre ++ (specialMember name info body ++ post)) (hp : p = pre.length)
    (hname : name = [0x2f] ∨ name = [0x2f, 0x2f] ∨ name = [0x2f, 0x53, 0x59, 0x4d, 0x36, 0x34, 0x2f] ∨
      (thin = false ∧ name = [0x2f, 0x3c, 0x45, 0x43, 0x53, 0x59, 0x4d, 0x42, 0x4f, 0x4c, 0x53, 0x3e, 0x2f]))
    (hi : info.length = 32) (hb : body.length < 10 ^ 10) (hl : data.length < U64) :
    parseMember data names thin p = .ok (some (⟨.common, header name info body.length, name, p + 60, body.length⟩,
      p + (specialMember name info body).length)) := by
  subst hd hp
  have hpos : 0 < (specialMember name info body).length := by simp [specialMember, header]; omega
  unfold parseMember
  rw [if_pos (by simp; omega)]
  have : parseCommon (pre ++ (specialMember name info body ++ post)) pre.length names thin = _ :=
    parseCommon_special names name info body pre post thin
      (by rcases hname with h | h | h | ⟨-, h⟩ <;> subst h <;> decide)
      (by rcases hname with h | h | h | ⟨-, h⟩ <;> subst h <;> decide)
      (by rcases hname with h | h | h | ⟨-, h⟩ <;> subst h <;> decide)
      (by rcases hname with h | h | h | ⟨-, h⟩ <;> subst h <;> decide)
      (by rcases hname with h | h | h | ⟨-, h⟩ <;> subst h <;> decide)
      (by
        intro ht
        rcases hname with h | h | h | ⟨h', -⟩
        · exact Or.inl h
        · exact Or.inr (Or.inl h)
        · exact Or.inr (Or.inr h)
        · rw [ht] at h'; simp at h')
      hi hb hl
  rw [this]; rfl

private theorem special_data {data pre post name info body : List UInt8} {p : Nat} {k : HeaderKind} {h nm : List UInt8}
    (hd : data = pre ++ (specialMember name info body ++ post)) (hp : p = pre.length) (hnl : name.length ≤ 16)
    (hi : info.length = 32) (hb : body.length < 10 ^ 10) :
    slice data (p + 60) body.length = body ∧ (⟨k, h, nm, p + 60, body.length⟩ : Member).data data = .ok body := by
  have hhl := length_header hnl hi ((length_decimal body.length 10 (by omega)).2 hb)
  have hs : data = (pre ++ header name info body.length) ++ (body ++ ((if body.length % 2 = 1 then [0x0a] else []) ++ post)) := by
    subst hd; simp [specialMember, padded]
  have ho : (pre ++ header name info body.length).length = p + 60 := by simp [hhl, hp]
  have h1 : slice data (p + 60) body.length = body := by rw [hs]; exact slice_of_append ho rfl
  refine ⟨h1, ?_⟩
  unfold Member.data
  simp only
  rw [if_neg (by omega), readRef_readBytesAt_eq, if_pos, h1]
  right
  rw [hs, ← ho]; simp; omega

/-- Looking at the first ordinary member. -/
private theorem pm_first {data pre names : List UInt8} {thin : Bool} {p : Nat} {es : List (Entry × Form)}
    (hd : data = pre ++ (es.map fun e => member thin e.1 e.2).flatten) (hp : p = pre.length)
    (hok : ∀ e ∈ es, Storable names e.1 e.2) (hfirst : ∀ e, es.head? = some e → ¬ Reserved e.1.name)
    (hthin : thin = true → ∀ e ∈ es, ¬ Reserved e.1.name ∧ ∀ pad, e.2 ≠ .inline pad)
    (hl : data.length < U64) (hn : names.length < U64) :
    parseMember data names thin p = .ok none ∨
    ∃ m t, parseMember data names thin p = .ok (some (m, t)) ∧ ¬ Reserved m.name := by
  subst hd hp
  unfold parseMember
  cases es with
  | nil => left; simp
  | cons e es =>
    right
    have hpos : 0 < (member thin e.1 e.2).length := by simp [member, header]; omega
    have hdata : pre ++ (((e :: es)).map fun e => member thin e.1 e.2).flatten =
        pre ++ (member thin e.1 e.2 ++ (es.map fun e => member thin e.1 e.2).flatten) := by simp
    rw [hdata] at hl ⊢
    rw [if_pos (by simp; omega), parseCommon_member names e.1 e.2 (hok e (by simp)) pre _ thin (fun ht => hthin ht e (by simp)) hl hn]
    exact ⟨_, _, rfl, hfirst e rfl⟩

/-- What is recorded about the symbol table. -/
private def SymRange (data : List UInt8) (r : Nat × Nat) : Option (List UInt8) → Prop
  | none => r = (0, 0)
  | some s => 0 < r.1 ∧ r.2 = s.length ∧ slice data r.1 r.2 = s

private theorem special_layout (thin : Bool) (L : Layout) (info : List UInt8) (es : List (Entry × Form))
    (hL : L.Ok thin info) (he : EntriesOk thin L es) (A data : List UInt8) (hA : A.length = 8)
    (hd : data = A ++ (L.bytes info ++ (es.map fun e => member thin e.1 e.2).flatten)) (hl : data.length < U64)
    (hn : L.names.length < U64) :
    ∃ r, special data thin 8 = .ok ⟨L.kind, r, L.names, 8 + (L.bytes info).length⟩ ∧ SymRange data r L.symbols := by
  obtain ⟨hi, hL⟩ := hL
  obtain ⟨hok, hfirst, hthin⟩ := he
  have key := fun pre p (h1 : data = pre ++ (es.map fun e => member thin e.1 e.2).flatten) (h2 : p = pre.length) =>
    pm_first h1 h2 hok hfirst hthin hl hn
  unfold special
  simp only [Res.bind_eq]
  cases L with
  | none =>
    refine ⟨(0, 0), ?_, rfl⟩
    simp only [Layout.bytes, Layout.names, List.nil_append, Layout.kind, List.length_nil] at *
    rcases key A 8 hd hA.symm with h | ⟨m, t, h, hres⟩
    · rw [h]; simp
    · rw [h]
      rw [reserved_iff] at hres
      simp only [not_or] at hres
      obtain ⟨h1, h2, h3, h4, h5, h6, h7, h8⟩ := hres
      simp only [Res.ok_bind]
      rw [if_neg h1, if_neg h3, if_neg h2, if_neg (by simp [h5, h6]), if_neg (by simp [h7, h8])]
  | gnu symbols names =>
    cases symbols with
    | none =>
      cases names with
      | none =>
        refine ⟨(0, 0), ?_, rfl⟩
        simp only [Layout.bytes, Layout.names, optMember, List.nil_append, List.append_nil, Layout.kind, List.length_nil, Option.getD_none] at *
        rcases key A 8 hd hA.symm with h | ⟨m, t, h, hres⟩
        · rw [h]; simp
        · rw [h]
          rw [reserved_iff] at hres
          simp only [not_or] at hres
          obtain ⟨h1, h2, h3, h4, h5, h6, h7, h8⟩ := hres
          simp only [Res.ok_bind]
          rw [if_neg h1, if_neg h3, if_neg h2, if_neg (by simp [h5, h6]), if_neg (by simp [h7, h8])]
      | some b =>
        refine ⟨(0, 0), ?_, rfl⟩
        simp only [Layout.bytes, Layout.names, optMember, List.nil_append, Layout.kind, Option.getD_some, s2] at *
        have hb := hL b (Or.inr rfl)
        rw [pm_special hd hA.symm (Or.inr (Or.inl rfl)) hi hb hl]
        simp only [Res.ok_bind]
        rw [if_neg (by decide), if_neg (by decide), if_pos trivial, (special_data hd hA.symm (by decide) hi hb).2]
        simp
    | some sb =>
      have hsb := hL sb (Or.inl rfl)
      cases names with
      | none =>
        simp only [Layout.bytes, Layout.names, optMember, List.append_nil, Layout.kind, Option.getD_none, s1] at *
        refine ⟨(8 + 60, sb.length), ?_, ⟨by show 0 < 8 + 60; omega, rfl, (special_data (k := .common) (h := []) (nm := []) hd hA.symm (by decide) hi hsb).1⟩⟩
        rw [pm_special hd hA.symm (Or.inl rfl) hi hsb hl]
        simp only [Res.ok_bind, if_true]
        rcases key (A ++ specialMember [0x2f] info sb) (8 + (specialMember [0x2f] info sb).length) (by simp [hd]) (by simp [hA]) with h | ⟨m, t, h, hres⟩
        · rw [h]; simp
        · rw [h]
          rw [reserved_iff] at hres
          simp only [not_or] at hres
          obtain ⟨h1, h2, h3, h4, h5, h6, h7, h8⟩ := hres
          simp only [Res.ok_bind]
          rw [if_neg h2, if_neg h1]
      | some nb =>
        have hnb := hL nb (Or.inr rfl)
        simp only [Layout.bytes, Layout.names, optMember, Layout.kind, Option.getD_some, s1, s2] at *
        have hd1 : data = A ++ (specialMember [0x2f] info sb ++ (specialMember [0x2f, 0x2f] info nb ++
            (es.map fun e => member thin e.1 e.2).flatten)) := by simp [hd]
        have hd2 : data = (A ++ specialMember [0x2f] info sb) ++ (specialMember [0x2f, 0x2f] info nb ++
            (es.map fun e => member thin e.1 e.2).flatten) := by simp [hd]
        have hp2 : 8 + (specialMember [0x2f] info sb).length = (A ++ specialMember [0x2f] info sb).length := by simp [hA]
        refine ⟨(8 + 60, sb.length), ?_, ⟨by show 0 < 8 + 60; omega, rfl, (special_data (k := .common) (h := []) (nm := []) hd1 hA.symm (by decide) hi hsb).1⟩⟩
        rw [pm_special hd1 hA.symm (Or.inl rfl) hi hsb hl]
        simp only [Res.ok_bind, if_true]
        rw [pm_special hd2 hp2 (Or.inr (Or.inl rfl)) hi hnb hl]
        simp only [Res.ok_bind, if_true]
        rw [(special_data hd2 hp2 (by decide) hi hnb).2]
        simp [Nat.add_assoc]
  | gnu64 sb names =>
    have hsb := hL sb (Or.inl rfl)
    cases names with
    | none =>
      simp only [Layout.bytes, Layout.names, optMember, List.append_nil, Layout.kind, Option.getD_none, s3] at *
      refine ⟨(8 + 60, sb.length), ?_, ⟨by show 0 < 8 + 60; omega, rfl, (special_data (k := .common) (h := []) (nm := []) hd hA.symm (by decide) hi hsb).1⟩⟩
      rw [pm_special hd hA.symm (Or.inr (Or.inr (Or.inl rfl))) hi hsb hl]
      simp only [Res.ok_bind]
      rw [if_neg (by decide), if_pos trivial]
      unfold gnuNames
      simp only [Res.bind_eq]
      rcases key (A ++ specialMember [0x2f, 0x53, 0x59, 0x4d, 0x36, 0x34, 0x2f] info sb) (8 + (specialMember [0x2f, 0x53, 0x59, 0x4d, 0x36, 0x34, 0x2f] info sb).length) (by simp [hd]) (by simp [hA]) with h | ⟨m, t, h, hres⟩
      · rw [h]; simp
      · rw [h]
        rw [reserved_iff] at hres
        simp only [not_or] at hres
        obtain ⟨h1, h2, h3, h4, h5, h6, h7, h8⟩ := hres
        simp only [Res.ok_bind]
        rw [if_neg h2]
    | some nb =>
      have hnb := hL nb (Or.inr rfl)
      simp only [Layout.bytes, Layout.names, optMember, Layout.kind, Option.getD_some, s3, s2] at *
      have hd1 : data = A ++ (specialMember [0x2f, 0x53, 0x59, 0x4d, 0x36, 0x34, 0x2f] info sb ++ (specialMember [0x2f, 0x2f] info nb ++
          (es.map fun e => member thin e.1 e.2).flatten)) := by simp [hd]
      have hd2 : data = (A ++ specialMember [0x2f, 0x53, 0x59, 0x4d, 0x36, 0x34, 0x2f] info sb) ++ (specialMember [0x2f, 0x2f] info nb ++
          (es.map fun e => member thin e.1 e.2).flatten) := by simp [hd]
      have hp2 : 8 + (specialMember [0x2f, 0x53, 0x59, 0x4d, 0x36, 0x34, 0x2f] info sb).length = (A ++ specialMember [0x2f, 0x53, 0x59, 0x4d, 0x36, 0x34, 0x2f] info sb).length := by simp [hA]
      refine ⟨(8 + 60, sb.length), ?_, ⟨by show 0 < 8 + 60; omega, rfl, (special_data (k := .common) (h := []) (nm := []) hd1 hA.symm (by decide) hi hsb).1⟩⟩
      rw [pm_special hd1 hA.symm (Or.inr (Or.inr (Or.inl rfl))) hi hsb hl]
      simp only [Res.ok_bind]
      rw [if_neg (by decide), if_pos trivial]
      unfold gnuNames
      simp only [Res.bind_eq]
      rw [pm_special hd2 hp2 (Or.inr (Or.inl rfl)) hi hnb hl]
      simp only [Res.ok_bind, if_true]
      rw [(special_data hd2 hp2 (by decide) hi hnb).2]
      simp [Nat.add_assoc]
  | bsd form srt sb =>
    obtain ⟨rfl, hst⟩ := hL
    simp only [Layout.bytes, Layout.names, Layout.kind, Layout.symbols, SymRange] at *
    obtain ⟨m1, m2⟩ := member_slice hst hd hA.symm
    refine ⟨(8 + 60 + ((content (symdefEntry false srt info sb) form).length - sb.length), sb.length), ?_, by omega, rfl, m1⟩
    have hp := parseCommon_member [] (symdefEntry false srt info sb) form hst A _ false (by simp) (by rw [← hd]; exact hl) (by simp)
    rw [← hd, hA] at hp
    have hpm : parseMember data [] false 8 = (parseCommon data 8 [] false).bind fun r => .ok (some r) := by
      unfold parseMember
      rw [if_pos]
      have := (length_header (nameField_le hst) hst.1 hst.2.1)
      rw [hd]
      simp only [member, List.length_append, this]
      omega
    rw [hpm, hp]
    simp only [Res.ok_bind]
    have hname : (symdefEntry false srt info sb).name = if srt then symdef ++ sorted else symdef := by
      cases srt <;> simp only [symdefEntry] <;> decide +kernel
    simp only [hname]
    cases srt
    · rw [if_neg (by decide), if_neg (by decide), if_neg (by decide)]
      rw [if_pos (by decide)]
      rfl
    · rw [if_neg (by decide), if_neg (by decide), if_neg (by decide)]
      rw [if_pos (by decide)]
      rfl
  | bsd64 form srt sb =>
    obtain ⟨rfl, hst⟩ := hL
    simp only [Layout.bytes, Layout.names, Layout.kind, Layout.symbols, SymRange] at *
    obtain ⟨m1, m2⟩ := member_slice hst hd hA.symm
    refine ⟨(8 + 60 + ((content (symdefEntry true srt info sb) form).length - sb.length), sb.length), ?_, by omega, rfl, m1⟩
    have hp := parseCommon_member [] (symdefEntry true srt info sb) form hst A _ false (by simp) (by rw [← hd]; exact hl) (by simp)
    rw [← hd, hA] at hp
    have hpm : parseMember data [] false 8 = (parseCommon data 8 [] false).bind fun r => .ok (some r) := by
      unfold parseMember
      rw [if_pos]
      have := (length_header (nameField_le hst) hst.1 hst.2.1)
      rw [hd]
      simp only [member, List.length_append, this]
      omega
    rw [hpm, hp]
    simp only [Res.ok_bind]
    have hname : (symdefEntry true srt info sb).name = if srt then symdef64 ++ sorted else symdef64 := by
      cases srt <;> simp only [symdefEntry] <;> decide +kernel
    simp only [hname]
    cases srt
    · rw [if_neg (by decide), if_neg (by decide), if_neg (by decide)]
      rw [if_neg (by decide), if_pos (by decide)]
      rfl
    · rw [if_neg (by decide), if_neg (by decide), if_neg (by decide)]
      rw [if_neg (by decide), if_pos (by decide)]
      rfl
  | coff first second names ec =>
    obtain ⟨rfl, hL⟩ := hL
    have hfb := hL first (Or.inl rfl)
    have hsb := hL second (Or.inr (Or.inl rfl))
    simp only [Layout.bytes, Layout.names, Layout.kind, Layout.symbols, SymRange, s1, s2, s4] at *
    have hd1 : data = A ++ (specialMember [0x2f] info first ++ (specialMember [0x2f] info second ++
        (optMember [0x2f, 0x2f] info names ++ (optMember [0x2f, 0x3c, 0x45, 0x43, 0x53, 0x59, 0x4d, 0x42, 0x4f, 0x4c, 0x53, 0x3e, 0x2f] info ec ++ (es.map fun e => member false e.1 e.2).flatten)))) := by simp [hd]
    have hd2 : data = (A ++ specialMember [0x2f] info first) ++ (specialMember [0x2f] info second ++
        (optMember [0x2f, 0x2f] info names ++ (optMember [0x2f, 0x3c, 0x45, 0x43, 0x53, 0x59, 0x4d, 0x42, 0x4f, 0x4c, 0x53, 0x3e, 0x2f] info ec ++ (es.map fun e => member false e.1 e.2).flatten))) := by simp [hd]
    have hp2 : 8 + (specialMember [0x2f] info first).length = (A ++ specialMember [0x2f] info first).length := by simp [hA]
    have hd3 : data = (A ++ specialMember [0x2f] info first ++ specialMember [0x2f] info second) ++
        (optMember [0x2f, 0x2f] info names ++ (optMember [0x2f, 0x3c, 0x45, 0x43, 0x53, 0x59, 0x4d, 0x42, 0x4f, 0x4c, 0x53, 0x3e, 0x2f] info ec ++ (es.map fun e => member false e.1 e.2).flatten)) := by simp [hd]
    have hp3 : 8 + (specialMember [0x2f] info first).length + (specialMember [0x2f] info second).length =
        (A ++ specialMember [0x2f] info first ++ specialMember [0x2f] info second).length := by simp [hA]; omega
    refine ⟨(8 + (specialMember [0x2f] info first).length + 60, second.length), ?_, by omega, rfl,
      (special_data (k := .common) (h := []) (nm := []) hd2 hp2 (by decide) hi hsb).1⟩
    rw [pm_special hd1 hA.symm (Or.inl rfl) hi hfb hl]
    simp only [Res.ok_bind, if_true]
    rw [pm_special hd2 hp2 (Or.inl rfl) hi hsb hl]
    simp only [Res.ok_bind]
    rw [if_neg (by decide), if_pos trivial]
    unfold coffRest
    simp only [Res.bind_eq]
    cases names with
    | none =>
      cases ec with
      | none =>
        simp only [optMember, List.nil_append, Option.getD_none] at *
        rcases key _ _ hd3 hp3 with h | ⟨m, t, h, hres⟩
        · rw [h]; simp [Nat.add_assoc]
        · rw [h]
          rw [reserved_iff] at hres
          simp only [not_or] at hres
          obtain ⟨h1, h2, h3, h4, h5, h6, h7, h8⟩ := hres
          simp only [Res.ok_bind]
          rw [if_neg h2, if_neg h4]
          simp [Nat.add_assoc]
      | some eb =>
        have heb := hL eb (Or.inr (Or.inr (Or.inr rfl)))
        simp only [optMember, List.nil_append, Option.getD_none] at *
        rw [pm_special hd3 hp3 (Or.inr (Or.inr (Or.inr ⟨rfl, rfl⟩))) hi heb hl]
        simp only [Res.ok_bind]
        rw [if_neg (by decide), if_pos trivial]
        simp [Nat.add_assoc]
    | some nb =>
      have hnb := hL nb (Or.inr (Or.inr (Or.inl rfl)))
      simp only [optMember, Option.getD_some] at *
      rw [pm_special hd3 hp3 (Or.inr (Or.inl rfl)) hi hnb hl]
      simp only [Res.ok_bind, if_true]
      rw [(special_data hd3 hp3 (by decide) hi hnb).2]
      simp only [Res.ok_bind]
      have hp4 : 8 + (specialMember [0x2f] info first).length + (specialMember [0x2f] info second).length +
          (specialMember [0x2f, 0x2f] info nb).length =
          (A ++ specialMember [0x2f] info first ++ specialMember [0x2f] info second ++ specialMember [0x2f, 0x2f] info nb).length := by
        simp [hA]; omega
      cases ec with
      | none =>
        simp only [List.nil_append] at *
        rcases key (A ++ specialMember [0x2f] info first ++ specialMember [0x2f] info second ++ specialMember [0x2f, 0x2f] info nb) _
            (by simp [hd]) hp4 with h | ⟨m, t, h, hres⟩
        · rw [h]; simp [Nat.add_assoc]
        · rw [h]
          rw [reserved_iff] at hres
          simp only [not_or] at hres
          obtain ⟨h1, h2, h3, h4, h5, h6, h7, h8⟩ := hres
          simp only [Res.ok_bind]
          rw [if_neg h4]
          simp [Nat.add_assoc]
      | some eb =>
        have heb := hL eb (Or.inr (Or.inr (Or.inr rfl)))
        have hd4 : data = (A ++ specialMember [0x2f] info first ++ specialMember [0x2f] info second ++ specialMember [0x2f, 0x2f] info nb) ++
            (specialMember [0x2f, 0x3c, 0x45, 0x43, 0x53, 0x59, 0x4d, 0x42, 0x4f, 0x4c, 0x53, 0x3e, 0x2f] info eb ++ (es.map fun e => member false e.1 e.2).flatten) := by simp [hd]
        rw [pm_special hd4 hp4 (Or.inr (Or.inr (Or.inr ⟨rfl, rfl⟩))) hi heb hl]
        simp only [Res.ok_bind, if_true]
        simp [Nat.add_assoc]

/-- C50: an archive written in any of the common formats (plain, GNU, GNU 64-bit, BSD, Darwin 64-bit, COFF; thin or not)
is read back: its kind, its symbol table, and exactly the members in order, with their names (short, from the names
table or stored in front of the data), header fields, sizes and data. -/
theorem C50_round_trip (thin : Bool) (L : Layout) (info : List UInt8) (es : List (Entry × Form))
    (hL : L.Ok thin info) (he : EntriesOk thin L es) (hl : (archive thin L info es).length < 2 ^ 64)
    (hn : L.names.length < 2 ^ 64) :
    ∃ f xs, parse (archive thin L info es) = .ok f ∧ f.kind = L.kind ∧ f.thin = thin ∧
      (match L.symbols with
        | none => f.symbols = (0, 0)
        | some s => f.symbols ≠ (0, 0) ∧ f.symbols.2 = s.length ∧ slice f.data f.symbols.1 f.symbols.2 = s) ∧
      Runs (next f.iter) f.members xs .done ∧
      xs.map (fun m => (m.name, slice m.header 16 32, m.size, m.data f.data)) =
        es.map (fun e => (e.1.name, e.1.info, e.1.body.length, .ok (if thin then [] else e.1.body))) := by
  generalize hA : (if thin then "!<thin>\n".toUTF8.toList else "!<arch>\n".toUTF8.toList : List UInt8) = A
  have hA' : A = if thin then thinMagic else magic := by
    rw [← hA]; cases thin <;> decide +kernel
  have hA8 : A.length = 8 := by rw [hA']; cases thin <;> rfl
  have hdata : archive thin L info es = A ++ (L.bytes info ++ (es.map fun e => member thin e.1 e.2).flatten) := by
    unfold archive; rw [hA]
  have hdata2 : archive thin L info es = (A ++ L.bytes info) ++ (es.map fun e => member thin e.1 e.2).flatten := by
    rw [hdata]; simp
  obtain ⟨r, hs, hsym⟩ := special_layout thin L info es hL he A _ hA8 hdata hl hn
  obtain ⟨xs, hr, hx⟩ := runs_members L.names hn thin es he.1 he.2.2 (A ++ L.bytes info) (by simp [hA8]; omega) (by rw [← hdata2]; exact hl)
  rw [← hdata2] at hr hx
  refine ⟨⟨archive thin L info es, L.kind, .common (8 + (L.bytes info).length) (archive thin L info es).length, r, L.names, thin⟩,
    xs, ?_, rfl, rfl, ?_, ?_, hx⟩
  · unfold parse
    have hm : (ReadRef.readBytes (archive thin L info es) 0 8).1 = .ok A := by
      have := read_at_append (pre := []) (b := A) (post := L.bytes info ++ (es.map fun e => member thin e.1 e.2).flatten) (n := 8)
        hA8 (by rw [List.nil_append, ← hdata]; exact hl)
      rw [List.nil_append, ← hdata] at this
      unfold ReadRef.read at this
      rw [List.length_nil] at this
      rw [this]
    rw [hm]
    simp only [Res.bind_eq, Res.ok_bind]
    have hth : decide (A = thinMagic) = thin := by rw [hA']; cases thin <;> decide
    rw [if_neg (by rw [hA']; cases thin <;> decide), if_neg (by rw [hA']; cases thin <;> decide),
      if_pos (by rw [hA']; cases thin <;> decide), hth, hs]
    rfl
  · cases h : L.symbols with
    | none => rw [h] at hsym; exact hsym
    | some s =>
      rw [h] at hsym
      obtain ⟨h1, h2, h3⟩ := hsym
      exact ⟨fun hr => by simp only at hr; rw [hr] at h1; simp at h1, h2, h3⟩
  · have : (A ++ L.bytes info).length = 8 + (L.bytes info).length := by simp [hA8]
    rw [this] at hr
    exact hr

/-- C50: looking a member up by the offset of its header gives the member that iteration yields there. -/
theorem C50_member_at_offset (f : File) (start e : Nat) (hm : f.members = .common start e ∨ f.members = .zos start e)
    (o : Nat) (ho : start ≤ o) (m : Member) (s' : Members)
    (h : next f.iter (match f.members with | .zos _ e => .zos o e | .common _ e => .common o e | s => s) = (.ok (some m), s')) :
    f.member o = .ok m := by
  unfold File.member
  rcases hm with hm | hm
  · rw [hm] at h ⊢
    simp only [next, File.iter] at h ⊢
    by_cases hc : e ≤ o
    · rw [if_pos hc] at h; simp at h
    · rw [if_neg hc] at h
      rw [if_neg (by omega)]
      cases hp : parseCommon f.data o f.names f.thin with
      | ok r => rw [hp] at h; simp at h; simp [h.1]
      | err => rw [hp] at h; simp at h
      | panic => rw [hp] at h; simp at h
  · rw [hm] at h ⊢
    simp only [next, File.iter] at h ⊢
    by_cases hc : e ≤ o
    · rw [if_pos hc] at h; simp at h
    · rw [if_neg hc] at h
      rw [if_neg (by omega)]
      cases hp : parseZos f.data o with
      | ok r => rw [hp] at h; simp at h; simp [h.1]
      | err => rw [hp] at h; simp at h
      | panic => rw [hp] at h; simp at h

/-! ## C51: symbol tables -/

private theorem readInt_wr (e : Endianness) (w n : Nat) (tl : List UInt8) (h : n < 256 ^ w) :
    readInt e w (wr e w n ++ tl) = (.ok n, tl) := by
  unfold readInt Bytes.read
  have := readBytes_append (wr e w n) tl
  rw [length_wr] at this
  rw [this]
  simp [rd_wr e w n h]

private theorem readSlice_map {α : Type} (enc : α → List UInt8) (size : Nat) (xs : List α) (h : ∀ x ∈ xs, (enc x).length = size)
    (tl : List UInt8) (hl : xs.length * size < U64) :
    Bytes.readSlice ((xs.map enc).flatten ++ tl) size xs.length = (.ok (xs.map enc), tl) := by
  have h1 : (xs.map enc).flatten = xs.flatMap enc := (List.flatMap_def ..).symm
  have h2 := Obj.Elf.length_flatMap_const enc size xs h
  unfold Bytes.readSlice
  rw [h1, if_pos (by simp only [List.length_append, h2]; omega), Obj.Elf.chunks_flatMap enc size xs h, ← h2]
  simp

private theorem collect_gnu (syms : List (List UInt8 × Nat)) (hz : ∀ s ∈ syms, (0 : UInt8) ∉ s.1) (tl : List UInt8) (n : Nat)
    (hn : syms.length < n) :
    collectSymbols n (.gnu (syms.map Prod.snd) ((syms.map fun s => s.1 ++ [0]).flatten ++ tl)) = syms.map Res.ok := by
  induction syms generalizing n with
  | nil =>
    cases n with
    | zero => rfl
    | succ n => rfl
  | cons s ss ih =>
    cases n with
    | zero => omega
    | succ n =>
      have hstr : Bytes.readString (((s :: ss).map fun s => s.1 ++ [0]).flatten ++ tl) =
          (.ok s.1, (ss.map fun s => s.1 ++ [0]).flatten ++ tl) := by
        have : ((s :: ss).map fun s => s.1 ++ [0]).flatten ++ tl = s.1 ++ 0 :: ((ss.map fun s => s.1 ++ [0]).flatten ++ tl) := by simp
        rw [this, readString_append (hz s (by simp))]
      simp only [List.map_cons] at hstr ⊢
      simp only [collectSymbols, nextSymbol, hstr, Res.ok_bind]
      rw [ih (fun x hx => hz x (by simp [hx])) n (by simpa using hn)]

/-- C51: the symbols of a GNU symbol table (32-bit and 64-bit) are read back. -/
theorem C51_gnu (w : Nat) (hw : w = 4 ∨ w = 8) (syms : List (List UInt8 × Nat))
    (hz : ∀ s ∈ syms, (0 : UInt8) ∉ s.1 ∧ s.2 < 256 ^ w) (hc : syms.length < 256 ^ w) (tl data : List UInt8) (o n : Nat)
    (hl : (gnuSymbols w syms).length < 2 ^ 64)
    (hd : ReadRef.readBytesAt data o n = .ok (gnuSymbols w syms ++ tl)) :
    ∃ it, newSymbols (if w = 4 then .gnu else .gnu64) data o n = .ok it ∧
      ∀ k, syms.length < k → collectSymbols k it = syms.map Res.ok := by
  have hlen : syms.length * w < U64 := by
    have h2 := Obj.Elf.length_flatMap_const (fun s : List UInt8 × Nat => wr .big w s.2) w syms (by simp)
    simp only [gnuSymbols, List.length_append, ← List.flatMap_def, h2] at hl
    omega
  have hnew : newGnu w (gnuSymbols w syms ++ tl) = .ok (.gnu (syms.map Prod.snd) ((syms.map fun s => s.1 ++ [0]).flatten ++ tl)) := by
    have hshape : gnuSymbols w syms ++ tl = wr .big w syms.length ++ ((syms.map fun s => wr .big w s.2).flatten ++
        ((syms.map fun s => s.1 ++ [0]).flatten ++ tl)) := by simp [gnuSymbols]
    unfold newGnu
    rw [hshape, readInt_wr .big w syms.length _ hc]
    simp only [Res.bind_eq, Res.ok_bind]
    rw [readSlice_map (fun s : List UInt8 × Nat => wr .big w s.2) w syms (by simp) _ hlen]
    simp only [Res.ok_bind, List.map_map, Res.ok.injEq, Symbols.gnu.injEq, and_true]
    apply List.map_congr_left
    intro s hs
    exact rd_wr .big w s.2 (hz s hs).2
  refine ⟨_, ?_, fun k hk => collect_gnu syms (fun s hs => (hz s hs).1) tl k hk⟩
  unfold newSymbols
  simp only [hd, Res.bind_eq, Res.ok_bind]
  rcases hw with rfl | rfl <;> simpa using hnew

private theorem length_bsdEntries (w pos : Nat) (syms : List (List UInt8 × Nat)) : (bsdEntries w pos syms).length = 2 * w * syms.length := by
  induction syms generalizing pos with
  | nil => simp [bsdEntries]
  | cons s ss ih => simp only [bsdEntries, List.length_append, length_wr, ih, List.length_cons, Nat.mul_add]; omega

private def bsdPairs : Nat → List (List UInt8 × Nat) → List (Nat × Nat)
  | _, [] => []
  | pos, s :: ss => (pos, s.2) :: bsdPairs (pos + s.1.length + 1) ss

private theorem chunks_bsd (w : Nat) (syms : List (List UInt8 × Nat)) (pos : Nat) (tl : List UInt8)
    (h : ∀ s ∈ syms, s.2 < 256 ^ w) (hp : pos + ((syms.map fun s => s.1 ++ [0]).flatten).length < 256 ^ w) :
    (Bytes.chunks (2 * w) syms.length (bsdEntries w pos syms ++ tl)).map (pairOf w) = bsdPairs pos syms := by
  induction syms generalizing pos with
  | nil => rfl
  | cons s ss ih =>
    simp only [List.map_cons, List.flatten_cons, List.length_append, List.length_cons, List.length_nil] at hp
    have h1 : (bsdEntries w pos (s :: ss) ++ tl).take (2 * w) = wr .little w pos ++ wr .little w s.2 := by
      simp only [bsdEntries, List.append_assoc]
      rw [← List.append_assoc, List.take_left' (by simp; omega)]
    have h2 : (bsdEntries w pos (s :: ss) ++ tl).drop (2 * w) = bsdEntries w (pos + s.1.length + 1) ss ++ tl := by
      simp only [bsdEntries, List.append_assoc]
      rw [← List.append_assoc (wr .little w pos), List.drop_left' (by simp; omega)]
    simp only [List.length_cons, Bytes.chunks, h1, h2, List.map_cons, bsdPairs]
    rw [ih (pos + s.1.length + 1) (fun x hx => h x (by simp [hx])) (by omega)]
    congr 1
    unfold pairOf
    rw [List.take_left' (by simp), List.drop_left' (by simp), rd_wr _ _ _ (by omega), rd_wr _ _ _ (h s (by simp))]

private theorem collect_bsd (syms : List (List UInt8 × Nat)) (hz : ∀ s ∈ syms, (0 : UInt8) ∉ s.1) (before : List UInt8) (n : Nat)
    (hn : syms.length < n) :
    collectSymbols n (.bsd (bsdPairs before.length syms) (before ++ (syms.map fun s => s.1 ++ [0]).flatten)) = syms.map Res.ok := by
  induction syms generalizing n before with
  | nil =>
    cases n with
    | zero => rfl
    | succ n => rfl
  | cons s ss ih =>
    cases n with
    | zero => omega
    | succ n =>
      have hshape : before ++ ((s :: ss).map fun s => s.1 ++ [0]).flatten = (before ++ (s.1 ++ [0])) ++ (ss.map fun s => s.1 ++ [0]).flatten := by simp
      have hstr : Bytes.readStringAt (before ++ ((s :: ss).map fun s => s.1 ++ [0]).flatten) before.length = .ok s.1 := by
        unfold Bytes.readStringAt Bytes.skip
        rw [if_pos (by simp)]
        simp only [List.drop_left]
        have : ((s :: ss).map fun s => s.1 ++ [0]).flatten = s.1 ++ 0 :: (ss.map fun s => s.1 ++ [0]).flatten := by simp
        rw [this, readString_append (hz s (by simp))]
      simp only [List.map_cons] at hstr hshape ⊢
      simp only [collectSymbols, bsdPairs, nextSymbol, hstr, Res.ok_bind]
      congr 1
      have := ih (fun x hx => hz x (by simp [hx])) (before ++ (s.1 ++ [0])) n (by simpa using hn)
      rw [← hshape] at this
      simpa [Nat.add_assoc] using this

/-- C51: the symbols of a BSD symbol table (32-bit and Darwin 64-bit) are read back. -/
theorem C51_bsd (w : Nat) (hw : w = 4 ∨ w = 8) (syms : List (List UInt8 × Nat))
    (hz : ∀ s ∈ syms, (0 : UInt8) ∉ s.1 ∧ s.2 < 256 ^ w) (hl : (bsdSymbols w syms).length < 256 ^ w) (tl data : List UInt8) (o n : Nat)
    (hd : ReadRef.readBytesAt data o n = .ok (bsdSymbols w syms ++ tl)) :
    ∃ it, newSymbols (if w = 4 then .bsd else .bsd64) data o n = .ok it ∧
      ∀ k, syms.length < k → collectSymbols k it = syms.map Res.ok := by
  generalize hN : (syms.map fun s => s.1 ++ [0]).flatten = N
  have hshape : bsdSymbols w syms ++ tl = wr .little w (2 * w * syms.length) ++ (bsdEntries w 0 syms ++
      (wr .little w N.length ++ (N ++ tl))) := by simp [bsdSymbols, hN]
  have hlen : w + 2 * w * syms.length + w + N.length < 256 ^ w := by
    simp only [bsdSymbols, hN, List.length_append, length_wr, length_bsdEntries] at hl
    omega
  have hpow : 256 ^ w ≤ U64 := by rcases hw with rfl | rfl <;> decide
  have hw0 : 0 < 2 * w := by omega
  have hnew : newBsd w (bsdSymbols w syms ++ tl) = .ok (.bsd (bsdPairs 0 syms) N) := by
    unfold newBsd
    rw [hshape, readInt_wr .little w _ _ (by omega)]
    simp only [Res.bind_eq, Res.ok_bind, Nat.mul_div_cancel_left _ hw0]
    have hrs : Bytes.readSlice (bsdEntries w 0 syms ++ (wr .little w N.length ++ (N ++ tl))) (2 * w) syms.length =
        (.ok (Bytes.chunks (2 * w) syms.length (bsdEntries w 0 syms ++ (wr .little w N.length ++ (N ++ tl)))),
          wr .little w N.length ++ (N ++ tl)) := by
      have he := length_bsdEntries w 0 syms
      have hcomm : syms.length * (2 * w) = 2 * w * syms.length := Nat.mul_comm ..
      unfold Bytes.readSlice
      rw [if_pos (by simp only [List.length_append]; omega), hcomm, List.drop_left' he]
    rw [hrs]
    simp only [Res.ok_bind, readInt_wr .little w N.length _ (by omega), readBytes_append]
    rw [chunks_bsd w syms 0 _ (fun s hs => (hz s hs).2) (by rw [hN]; omega)]
  refine ⟨.bsd (bsdPairs 0 syms) N, ?_, fun k hk => ?_⟩
  · unfold newSymbols
    simp only [hd, Res.bind_eq, Res.ok_bind]
    rcases hw with rfl | rfl <;> simpa using hnew
  · have := collect_bsd syms (fun s hs => (hz s hs).1) [] k hk
    rw [List.nil_append, hN] at this
    exact this

private theorem collect_coff (members : List Nat) (syms : List (List UInt8 × Nat)) (hz : ∀ s ∈ syms, (0 : UInt8) ∉ s.1)
    (hi : ∀ s ∈ syms, 1 ≤ s.2 ∧ s.2 ≤ members.length ∧ s.2 < U16) (tl : List UInt8) (n : Nat) (hn : syms.length < n) :
    collectSymbols n (.coff members (syms.map Prod.snd) ((syms.map fun s => s.1 ++ [0]).flatten ++ tl)) =
      syms.map fun s => .ok (s.1, (members[s.2 - 1]?).getD 0) := by
  induction syms generalizing n with
  | nil =>
    cases n with
    | zero => rfl
    | succ n => rfl
  | cons s ss ih =>
    cases n with
    | zero => omega
    | succ n =>
      have hstr : Bytes.readString (((s :: ss).map fun s => s.1 ++ [0]).flatten ++ tl) =
          (.ok s.1, (ss.map fun s => s.1 ++ [0]).flatten ++ tl) := by
        have : ((s :: ss).map fun s => s.1 ++ [0]).flatten ++ tl = s.1 ++ 0 :: ((ss.map fun s => s.1 ++ [0]).flatten ++ tl) := by simp
        rw [this, readString_append (hz s (by simp))]
      obtain ⟨h1, h2, h3⟩ := hi s (by simp)
      have hidx : (s.2 + U16 - 1) % U16 = s.2 - 1 := by omega
      have hget : members[s.2 - 1]? = some members[s.2 - 1] := List.getElem?_eq_getElem (by omega)
      simp only [List.map_cons] at hstr ⊢
      simp only [collectSymbols, nextSymbol, hstr, Res.ok_bind, hidx, hget]
      rw [ih (fun x hx => hz x (by simp [hx])) (fun x hx => hi x (by simp [hx])) n (by simpa using hn)]
      simp

/-- C51: the symbols of a COFF symbol table are read back, each with the offset of its member. -/
theorem C51_coff (members : List Nat) (syms : List (List UInt8 × Nat)) (hm : ∀ m ∈ members, m < 2 ^ 32)
    (hz : ∀ s ∈ syms, (0 : UInt8) ∉ s.1) (hi : ∀ s ∈ syms, 1 ≤ s.2 ∧ s.2 ≤ members.length ∧ s.2 < 2 ^ 16)
    (hc : members.length < 2 ^ 32) (hc' : syms.length < 2 ^ 32) (tl data : List UInt8) (o n : Nat)
    (hd : ReadRef.readBytesAt data o n = .ok (coffSymbols members syms ++ tl)) :
    ∃ it, newSymbols .coff data o n = .ok it ∧
      ∀ k, syms.length < k → collectSymbols k it = syms.map fun s => .ok (s.1, (members[s.2 - 1]?).getD 0) := by
  refine ⟨.coff members (syms.map Prod.snd) ((syms.map fun s => s.1 ++ [0]).flatten ++ tl), ?_, fun k hk => collect_coff members syms hz hi tl k hk⟩
  unfold newSymbols
  simp only [hd, Res.bind_eq, Res.ok_bind]
  unfold newCoff
  have hshape : coffSymbols members syms ++ tl = wr .little 4 members.length ++ ((members.map (wr .little 4)).flatten ++
      (wr .little 4 syms.length ++ ((syms.map fun s => wr .little 2 s.2).flatten ++ ((syms.map fun s => s.1 ++ [0]).flatten ++ tl)))) := by
    simp [coffSymbols]
  rw [hshape, readInt_wr .little 4 _ _ (by simpa using hc)]
  simp only [Res.bind_eq, Res.ok_bind]
  rw [readSlice_map (wr .little 4) 4 members (by simp) _ (by omega)]
  simp only [Res.ok_bind]
  rw [readInt_wr .little 4 _ _ (by simpa using hc')]
  simp only [Res.ok_bind]
  rw [readSlice_map (fun s : List UInt8 × Nat => wr .little 2 s.2) 2 syms (by simp) _ (by omega)]
  simp only [Res.ok_bind, List.map_map, Res.ok.injEq, Symbols.coff.injEq, and_true]
  constructor
  · conv => rhs; rw [← List.map_id members]
    apply List.map_congr_left
    intro m hm'
    exact rd_wr .little 4 m (by have := hm m hm'; omega)
  · apply List.map_congr_left
    intro s hs
    exact rd_wr .little 2 s.2 (by have := (hi s hs).2.2; omega)

private def exInfo : List UInt8 := List.replicate 32 0x30
private def exLayout : Layout := .gnu (some (gnuSymbols 4 [([0x66], 0x80), ([0x67, 0x68], 0xc0)])) (some [0x61, 0x62, 0x2f, 0x0a, 0x63, 0x2f, 0x0a])
private def exEntries : List (Entry × Form) :=
  [(⟨[0x78, 0x2e, 0x6f], exInfo, [1, 2, 3]⟩, .slash), (⟨[0x63], exInfo, [4]⟩, .table 4), (⟨[0x79, 0x20], exInfo, []⟩, .inline 2)]

/-- A GNU archive with a symbol table of two symbols, a names table and three members, one per way to store the name,
is covered by `C50_round_trip`; so is a thin archive. -/
example : exLayout.Ok false exInfo ∧ EntriesOk false exLayout exEntries ∧ exLayout.names.length < 2 ^ 64 ∧
    (archive false exLayout exInfo exEntries).length < 2 ^ 64 ∧
    EntriesOk true exLayout (exEntries.take 2) ∧ exLayout.Ok true exInfo := by
  have hr : ∀ n ∈ [([0x78, 0x2e, 0x6f] : List UInt8), [0x63], [0x79, 0x20]], ¬ Reserved n := by
    unfold Reserved; decide +kernel
  have hL : ∀ t, exLayout.Ok t exInfo := by
    intro t
    refine ⟨rfl, ?_⟩
    rintro b (h | h) <;> (injection h with h; subst h; decide)
  have hst : ∀ e ∈ exEntries, Storable exLayout.names e.1 e.2 := by
    intro e he
    simp only [exEntries, List.mem_cons, List.not_mem_nil, or_false] at he
    rcases he with rfl | rfl | rfl
    · exact ⟨rfl, by simp [content, decimal], by decide⟩
    · refine ⟨rfl, by simp [content, decimal], by decide, by decide, by simp [decimal], [0x61, 0x62, 0x2f, 0x0a], [], rfl, Or.inl rfl⟩
    · exact ⟨rfl, by simp [content, decimal], by decide, by simp [decimal]⟩
  refine ⟨hL false, ⟨hst, ?_, by simp⟩, by decide, ?_, ⟨?_, ?_, ?_⟩, hL true⟩
  · intro e he; injection he with he; subst he; exact hr _ (by simp)
  · have h1 : "!<arch>\n".toUTF8.toList.length = 8 := by decide +kernel
    have h2 : "/".toUTF8.toList = [0x2f] := by decide +kernel
    have h3 : "//".toUTF8.toList = [0x2f, 0x2f] := by decide +kernel
    have hs : ∀ w l, (spaces w l).length = max w l.length := by intro w l; simp [spaces]; omega
    have hh : ∀ n i k, (header n i k).length = max 16 n.length + i.length + max 10 (decimal k).length + 2 := by
      intro n i k; simp [header, hs]; omega
    have hd : ∀ k, k < 10 → (decimal k).length = 1 := by intro k hk; unfold decimal; rw [if_pos hk]; rfl
    have hp : ∀ c, (padded c).length ≤ c.length + 1 := by
      intro c; unfold padded; split <;> simp
    have hg : (gnuSymbols 4 [([0x66], 0x80), ([0x67, 0x68], 0xc0)]).length = 17 := by decide
    have hg' : (decimal 17).length = 2 := by simp [decimal]
    have p1 := hp (gnuSymbols 4 [([0x66], 0x80), ([0x67, 0x68], 0xc0)])
    have p2 := hp [0x61, 0x62, 0x2f, 0x0a, 0x63, 0x2f, 0x0a]
    have p3 := hp [1, 2, 3]
    have p4 := hp [4]
    have p5 := hp ([0x79, 0x20] ++ List.replicate 2 0 ++ [])
    simp only [archive, exLayout, exEntries, Layout.bytes, optMember, specialMember, member, content, nameField,
      List.length_append, List.map_cons, List.map_nil, List.flatten_cons, List.flatten_nil, hh, hd, h1, h2, h3, hg, hg', exInfo,
      List.length_replicate, List.length_cons, List.length_nil, Bool.false_eq_true, if_false, Nat.reduceAdd, Nat.reduceLT] at *
    omega
  · intro e he; exact hst e (List.mem_of_mem_take he)
  · intro e he; injection he with he; subst he; exact hr _ (by simp)
  · intro _ e he
    simp only [exEntries, List.take_succ_cons, List.take_zero, List.mem_cons, List.not_mem_nil, or_false] at he
    rcases he with rfl | rfl
    · exact ⟨hr _ (by simp), by simp⟩
    · exact ⟨hr _ (by simp), by simp⟩

/-- The symbol tables covered by C51. -/
example : ∃ it, newSymbols .gnu (gnuSymbols 4 [([0x66], 0x80), ([0x67, 0x68], 0xc0)]) 0 17 = .ok it ∧
    collectSymbols 3 it = [.ok ([0x66], 0x80), .ok ([0x67, 0x68], 0xc0)] := by
  obtain ⟨it, h1, h2⟩ := C51_gnu 4 (Or.inl rfl) [([0x66], 0x80), ([0x67, 0x68], 0xc0)] (by decide) (by decide) [] _ 0 17
    (by decide) (by decide : ReadRef.readBytesAt (gnuSymbols 4 [([0x66], 0x80), ([0x67, 0x68], 0xc0)]) 0 17 = _)
  exact ⟨it, h1, h2 3 (by decide)⟩

example : ∃ it, newSymbols .bsd64 (bsdSymbols 8 [([0x66], 0x80), ([0x67, 0x68], 0xc0)]) 0 53 = .ok it ∧
    collectSymbols 3 it = [.ok ([0x66], 0x80), .ok ([0x67, 0x68], 0xc0)] := by
  obtain ⟨it, h1, h2⟩ := C51_bsd 8 (Or.inr rfl) [([0x66], 0x80), ([0x67, 0x68], 0xc0)] (by decide) (by decide) [] _ 0 53
    (by decide : ReadRef.readBytesAt (bsdSymbols 8 [([0x66], 0x80), ([0x67, 0x68], 0xc0)]) 0 53 = _)
  exact ⟨it, h1, h2 3 (by decide)⟩

example : ∃ it, newSymbols .coff (coffSymbols [0x80, 0xc0] [([0x66], 2), ([0x67, 0x68], 1), ([], 2)]) 0 28 = .ok it ∧
    collectSymbols 4 it = [.ok ([0x66], 0xc0), .ok ([0x67, 0x68], 0x80), .ok ([], 0xc0)] := by
  obtain ⟨it, h1, h2⟩ := C51_coff [0x80, 0xc0] [([0x66], 2), ([0x67, 0x68], 1), ([], 2)] (by decide) (by decide) (by decide)
    (by decide) (by decide) [] _ 0 28
    (by decide : ReadRef.readBytesAt (coffSymbols [0x80, 0xc0] [([0x66], 2), ([0x67, 0x68], 1), ([], 2)]) 0 28 = _)
  exact ⟨it, h1, h2 4 (by decide)⟩

end Obj.Props
