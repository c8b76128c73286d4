import Verif.Proof.ElfAttr
import Verif.Proof.Bytes

/-! # C35: ELF attributes sections -/

namespace Obj.Props
open Obj Obj.Attr Obj.Spec Obj.Spec.AttrS

private theorem read_values (vs : List Value) (h : ∀ v ∈ vs, v.Fits) (rest : List UInt8) :
    ReadValues (vs.flatMap valEnc ++ rest) vs rest := by
  induction vs with
  | nil => rfl
  | cons v vs ih =>
    have hv := h v (by simp)
    have ih := ih (fun x hx => h x (by simp [hx]))
    rw [List.flatMap_cons, List.append_assoc]
    cases v with
    | int v => exact ⟨_, readUleb_uleb v hv _, ih⟩
    | str s =>
      refine ⟨vs.flatMap valEnc ++ rest, ?_, ih⟩
      show Bytes.readString (s ++ [0] ++ _) = _
      rw [List.append_assoc]
      exact readString_append hv

private theorem uleb_ne_nil (v : Nat) (h : v < 2 ^ 64) : uleb v ≠ [] := by
  intro hc
  have := (uleb_spec v h).1
  rw [hc] at this
  exact this

private theorem read_attributes (as : List Attribute) (h : ∀ a ∈ as, a.tag < 2 ^ 64 ∧ ∀ v ∈ a.values, v.Fits) :
    ReadAttributes (as.flatMap attrEnc) as := by
  induction as with
  | nil => simp [ReadAttributes, readTag]
  | cons a as ih =>
    obtain ⟨h1, h2⟩ := h a (by simp)
    have ih := ih (fun x hx => h x (by simp [hx]))
    rw [List.flatMap_cons, attrEnc, List.append_assoc]
    refine ⟨a.values.flatMap valEnc ++ as.flatMap attrEnc, as.flatMap attrEnc, ?_, read_values _ h2 _, ih⟩
    unfold readTag
    rw [if_neg (by simp [uleb_ne_nil a.tag h1]), readUleb_uleb a.tag h1]

private theorem read_indices (is : List Nat) (h : ∀ i ∈ is, i ≠ 0 ∧ i < 2 ^ 32) : Runs indexNext (is.flatMap uleb) is .done := by
  have := fuse_round_trip (parse := parseIndex) uleb (fun i => i) is (fun i hi => uleb_ne_nil i (by have := (h i hi).2; omega))
    (fun i hi tl => by
      have := (h i hi).2
      unfold parseIndex
      rw [readUleb_uleb i (by omega)]
      exact if_pos this)
  rw [List.map_id'] at this
  exact this

private theorem idx_nul (is : List Nat) (h : ∀ i ∈ is, i ≠ 0 ∧ i < 2 ^ 32) : (0 : UInt8) ∉ is.flatMap uleb := by
  intro hm
  rw [List.mem_flatMap] at hm
  obtain ⟨i, hi, hm⟩ := hm
  exact (uleb_shape i).2 (h i hi).1 hm

/-- What is read for a sub-subsection. -/
private def ssVal (s : SubSub) : Subsubsection := ⟨s.tag, 5 + (ssBody s).length, s.indices.flatMap uleb, s.attributes.flatMap attrEnc⟩

private theorem parse_ss (e : Endianness) (s : SubSub) (h : s.Fits) (hl : 5 + (ssBody s).length < U32) (tl : List UInt8) :
    parseSubsubsection e (ssEnc e s ++ tl) = (.ok (ssVal s), tl) := by
  have hread : Bytes.read (ssEnc e s ++ tl) 1 = (.ok [s.tag], wr e 4 (5 + (ssBody s).length) ++ (ssBody s ++ tl)) := by
    unfold ssEnc
    simp only [List.append_assoc]
    exact readBytes_append [s.tag] _
  have hread2 : Bytes.read (wr e 4 (5 + (ssBody s).length) ++ (ssBody s ++ tl)) 4 = (.ok (wr e 4 (5 + (ssBody s).length)), ssBody s ++ tl) := by
    have := readBytes_append (wr e 4 (5 + (ssBody s).length)) (ssBody s ++ tl)
    rw [length_wr] at this
    exact this
  have hlen : (ssEnc e s).length = 5 + (ssBody s).length := by simp [ssEnc]; omega
  have hb : Bytes.readBytes (ssEnc e s ++ tl) (5 + (ssBody s).length) = (.ok (ssEnc e s), tl) := by
    rw [← hlen]; exact readBytes_append _ _
  have hskip : Bytes.skip (ssEnc e s) 5 = (.ok (), ssBody s) := by
    unfold Bytes.skip
    rw [if_pos (by omega)]
    unfold ssEnc
    rw [List.drop_left' (by simp)]
  unfold parseSubsubsection
  rw [hread]
  simp only
  rw [hread2]
  simp only
  rw [rd_wr e 4 _ (by omega), hb]
  simp only
  rw [hskip]
  simp only
  rcases h.tag with ⟨h1, h2⟩ | ht
  · rw [if_neg (by simp [h1]), if_pos (by simp [h1])]
    have : idxEnc s = [] := by simp [idxEnc, h1]
    simp [ssVal, ssBody, this, h2]
  · have h1 : s.tag ≠ 1 := by rcases ht with ht | ht <;> rw [ht] <;> decide
    rw [if_pos (by rcases ht with ht | ht <;> simp [ht])]
    have hi : ssBody s = s.indices.flatMap uleb ++ 0 :: s.attributes.flatMap attrEnc := by simp [ssBody, idxEnc, h1]
    have hstr : Bytes.readString (ssBody s) = (.ok (s.indices.flatMap uleb), s.attributes.flatMap attrEnc) := by
      rw [hi]; exact readString_append (idx_nul _ h.indices)
    rw [hstr]
    rfl

private def subVal (e : Endianness) (s : Sub) : Subsection := ⟨4 + (subBody e s).length, s.vendor, s.subs.flatMap (ssEnc e)⟩

private theorem parse_sub (e : Endianness) (s : Sub) (h : s.Fits) (hl : 4 + (subBody e s).length < U32) (tl : List UInt8) :
    parseSubsection e (subEnc e s ++ tl) = (.ok (subVal e s), tl) := by
  have hread2 : Bytes.read (subEnc e s ++ tl) 4 = (.ok (wr e 4 (4 + (subBody e s).length)), subBody e s ++ tl) := by
    have := readBytes_append (wr e 4 (4 + (subBody e s).length)) (subBody e s ++ tl)
    rw [length_wr] at this
    unfold subEnc
    rw [List.append_assoc]
    exact this
  have hlen : (subEnc e s).length = 4 + (subBody e s).length := by simp [subEnc]
  have hb : Bytes.readBytes (subEnc e s ++ tl) (4 + (subBody e s).length) = (.ok (subEnc e s), tl) := by
    rw [← hlen]; exact readBytes_append _ _
  have hskip : Bytes.skip (subEnc e s) 4 = (.ok (), subBody e s) := by
    unfold Bytes.skip
    rw [if_pos (by omega)]
    unfold subEnc
    rw [List.drop_left' (by simp)]
  have hstr : Bytes.readString (subBody e s) = (.ok s.vendor, s.subs.flatMap (ssEnc e)) := by
    unfold subBody
    rw [List.append_assoc]
    exact readString_append h.vendor
  unfold parseSubsection
  rw [hread2]
  simp only
  rw [rd_wr e 4 _ (by omega), hb]
  simp only
  rw [hskip]
  simp only
  rw [hstr]
  rfl

private theorem each_map {α β : Type} (r : α → β → Prop) (f : α → β) (xs : List α) (h : ∀ x ∈ xs, r x (f x)) : Each r xs (xs.map f) := by
  induction xs with
  | nil => trivial
  | cons x xs ih => exact ⟨h x (by simp), ih fun y hy => h y (by simp [hy])⟩

private theorem le_sum {α : Type} (n : α → Nat) (xs : List α) (x : α) (h : x ∈ xs) : n x ≤ (xs.map n).sum := by
  induction xs with
  | nil => simp at h
  | cons y xs ih =>
    rw [List.mem_cons] at h
    simp only [List.map_cons, List.sum_cons]
    rcases h with rfl | h
    · omega
    · have := ih h; omega

/-- C35: everything written by `AttributesWriter` (any nesting of subsections, sub-subsections for the file, sections or
symbols, attributes with any integer and string values) that is below 2^32-1 bytes in total is written without panicking, with
the expected size, and read back. -/
theorem C35_round_trip (e : Endianness) (subs : List Sub) (hf : ∀ s ∈ subs, s.Fits) (hs : sizeAll subs < 2 ^ 32 - 1) :
    ∃ data, writeAll e subs = .ok data ∧ data.length = sizeAll subs ∧
      ∃ body, subsections (sectionNew data).1 (sectionNew data).2 = .ok body ∧ ReadSubs e body subs := by
  obtain ⟨h1, h2⟩ := writeAll_ok e subs (by omega)
  refine ⟨_, h1, h2, subs.flatMap (subEnc e), rfl, subs.map (subVal e), ?_, ?_⟩
  · refine fuse_round_trip (subEnc e) (subVal e) subs ?_ ?_
    · intro s _ hc
      have := congrArg List.length hc
      simp [subEnc] at this
    · intro s hsm tl
      refine parse_sub e s (hf s hsm) ?_ tl
      have h3 := length_subEnc e s
      have h4 := le_sum Sub.size subs s hsm
      have : (subEnc e s).length = 4 + (subBody e s).length := by simp [subEnc]
      unfold sizeAll at hs
      omega
  · refine each_map _ _ _ fun s hsm => ⟨rfl, s.subs.map ssVal, ?_, ?_⟩
    · refine fuse_round_trip (ssEnc e) ssVal s.subs ?_ ?_
      · intro x _ hc
        have := congrArg List.length hc
        simp [ssEnc] at this
      · intro x hx tl
        refine parse_ss e x ((hf s hsm).subs x hx) ?_ tl
        have h3 := length_ssEnc e x
        have h4 := le_sum SubSub.size s.subs x hx
        have h5 := le_sum Sub.size subs s hsm
        have : (ssEnc e x).length = 5 + (ssBody x).length := by simp [ssEnc]; omega
        unfold sizeAll at hs
        have h6 : (s.subs.map SubSub.size).sum ≤ s.size := by unfold Sub.size; omega
        omega
    · refine each_map _ _ _ fun x hx => ⟨rfl, ?_, ?_⟩
      · exact read_indices _ ((hf s hsm).subs x hx).indices
      · exact read_attributes _ ((hf s hsm).subs x hx).attributes

/-- Two vendors, with attributes for the file and for two sections. -/
example : ∃ subs : List Sub, subs.length = 2 ∧ (∀ s ∈ subs, s.Fits) ∧ sizeAll subs < 2 ^ 32 - 1 ∧
    writeAll .little subs = .ok [0x41, 20, 0, 0, 0, 97, 0, 1, 14, 0, 0, 0, 5, 120, 0, 6, 0x80, 1, 1, 7, 0,
      17, 0, 0, 0, 103, 0, 2, 11, 0, 0, 0, 0x81, 1, 3, 0, 4, 1] := by
  refine ⟨[⟨[97], [⟨1, [], [⟨5, [.str [120]]⟩, ⟨6, [.int 128, .int 1]⟩, ⟨7, [.str []]⟩]⟩]⟩,
    ⟨[103], [⟨2, [129, 3], [⟨4, [.int 1]⟩]⟩]⟩], rfl, ?_, ?_, ?_⟩
  · intro s hs
    simp only [List.mem_cons, List.not_mem_nil, or_false] at hs
    rcases hs with rfl | rfl
    · refine ⟨by decide, ?_⟩
      intro x hx
      simp only [List.mem_cons, List.not_mem_nil, or_false] at hx
      subst hx
      refine ⟨by decide, by simp, ?_⟩
      intro a ha
      simp only [List.mem_cons, List.not_mem_nil, or_false] at ha
      rcases ha with rfl | rfl | rfl <;> simp [Value.Fits]
    · refine ⟨by decide, ?_⟩
      intro x hx
      simp only [List.mem_cons, List.not_mem_nil, or_false] at hx
      subst hx
      refine ⟨by decide, by simp, ?_⟩
      intro a ha
      simp only [List.mem_cons, List.not_mem_nil, or_false] at ha
      rcases ha with rfl
      simp [Value.Fits]
  · simp [sizeAll, Sub.size, SubSub.size, Attribute.size, Value.size, ulebSize]
  · rw [(writeAll_ok _ _ (by simp [sizeAll, Sub.size, SubSub.size, Attribute.size, Value.size, ulebSize])).1]
    decide +kernel

private theorem bytes_read_no_panic (d : List UInt8) (n : Nat) : (Bytes.read d n).1 ≠ .panic ∧ (Bytes.readBytes d n).1 ≠ .panic ∧
    (Bytes.skip d n).1 ≠ .panic := by
  unfold Bytes.read Bytes.readBytes Bytes.skip
  by_cases h : n ≤ d.length <;> simp [h]

private theorem readString_no_panic (d : List UInt8) : (Bytes.readString d).1 ≠ .panic := by
  rcases readString_cases d with ⟨s, tl, -, -, h⟩ | ⟨-, h⟩ <;> rw [h] <;> simp

private theorem readString_shorter (d s tl : List UInt8) (h : Bytes.readString d = (.ok s, tl)) : d = s ++ 0 :: tl ∧ (0 : UInt8) ∉ s := by
  rcases readString_cases d with ⟨s', tl', h1, h2, h'⟩ | ⟨-, h'⟩
  · rw [h] at h'
    simp only [Prod.mk.injEq, Res.ok.injEq] at h'
    obtain ⟨rfl, rfl⟩ := h'
    exact ⟨h1, h2⟩
  · rw [h] at h'; simp at h'

private theorem parse_sub_props (e : Endianness) (d : List UInt8) :
    (parseSubsection e d).1 ≠ .panic ∧ ∀ y d', parseSubsection e d = (.ok y, d') →
      d.length = y.length + d'.length ∧ 4 ≤ y.length ∧ ∃ pre, d = pre ++ y.vendor ++ [0] ++ y.data ++ d' ∧ pre.length = 4 := by
  unfold parseSubsection
  match h1 : Bytes.read d 4 with
  | (.err, _) => simp
  | (.panic, _) => have := (bytes_read_no_panic d 4).1; simp [h1] at this
  | (.ok img, r) =>
    simp only
    match h2 : Bytes.readBytes d (rd e img) with
    | (.err, _) => simp
    | (.panic, _) => have := (bytes_read_no_panic d (rd e img)).2.1; simp [h2] at this
    | (.ok sub, tl) =>
      simp only
      match h3 : Bytes.skip sub 4 with
      | (.err, _) => simp
      | (.panic, _) => have := (bytes_read_no_panic sub 4).2.2; simp [h3] at this
      | (.ok (), sub') =>
        simp only
        match h4 : Bytes.readString sub' with
        | (.err, _) => simp
        | (.panic, _) => have := readString_no_panic sub'; simp [h4] at this
        | (.ok v, dd) =>
          simp only [ne_eq, reduceCtorEq, not_false_eq_true, Prod.mk.injEq, Res.ok.injEq, true_and]
          rintro y d' ⟨rfl, rfl⟩
          unfold Bytes.readBytes at h2
          split at h2
          · simp only [Prod.mk.injEq, Res.ok.injEq] at h2
            obtain ⟨rfl, rfl⟩ := h2
            unfold Bytes.skip at h3
            split at h3
            · rename_i hle hle4
              simp only [Prod.mk.injEq, true_and] at h3
              obtain ⟨g1, -⟩ := readString_shorter _ _ _ h4
              rw [List.length_take] at hle4
              refine ⟨by simp; omega, by simp only; omega, d.take 4, ?_, by simp; omega⟩
              simp only
              have e1 : d.take 4 = (d.take (rd e img)).take 4 := by rw [List.take_take]; congr 1; omega
              rw [e1]
              have : (List.take (rd e img) d).take 4 ++ v ++ [0] ++ dd = d.take (rd e img) := by
                rw [List.append_assoc, List.append_assoc]
                show _ ++ (v ++ 0 :: dd) = _
                rw [← g1, ← h3, List.take_append_drop]
              rw [this, List.take_append_drop]
            · simp at h3
          · simp at h2

private theorem parse_ss_props (e : Endianness) (d : List UInt8) :
    (parseSubsubsection e d).1 ≠ .panic ∧ ∀ y d', parseSubsubsection e d = (.ok y, d') →
      d.length = y.length + d'.length ∧ 5 ≤ y.length ∧ (y.tag = 1 ∧ y.indices = [] ∨ y.tag = 2 ∨ y.tag = 3) ∧
      ∃ pre, d = pre ++ y.indices ++ (if y.tag = 1 then [] else [0]) ++ y.data ++ d' ∧ pre.length = 5 := by
  unfold parseSubsubsection
  match h0 : Bytes.read d 1 with
  | (.err, _) => simp
  | (.panic, _) => have := (bytes_read_no_panic d 1).1; simp [h0] at this
  | (.ok t, d1) =>
    simp only
    match h1 : Bytes.read d1 4 with
    | (.err, _) => simp
    | (.panic, _) => have := (bytes_read_no_panic d1 4).1; simp [h1] at this
    | (.ok img, r) =>
      simp only
      match h2 : Bytes.readBytes d (rd e img) with
      | (.err, _) => simp
      | (.panic, _) => have := (bytes_read_no_panic d (rd e img)).2.1; simp [h2] at this
      | (.ok sub, tl) =>
        simp only
        match h3 : Bytes.skip sub 5 with
        | (.err, _) => simp
        | (.panic, _) => have := (bytes_read_no_panic sub 5).2.2; simp [h3] at this
        | (.ok (), sub') =>
          simp only
          have hcore : d.length = rd e img + tl.length ∧ 5 ≤ rd e img ∧ ∃ pre, d = pre ++ sub' ++ tl ∧ pre.length = 5 := by
            unfold Bytes.readBytes at h2
            split at h2
            · simp only [Prod.mk.injEq, Res.ok.injEq] at h2
              obtain ⟨rfl, rfl⟩ := h2
              unfold Bytes.skip at h3
              split at h3
              · rename_i hle hle4
                simp only [Prod.mk.injEq, true_and] at h3
                rw [List.length_take] at hle4
                refine ⟨by simp; omega, by omega, d.take 5, ?_, by simp; omega⟩
                have e1 : d.take 5 = (d.take (rd e img)).take 5 := by rw [List.take_take]; congr 1; omega
                rw [e1, ← h3, List.take_append_drop, List.take_append_drop]
              · simp at h3
            · simp at h2
          obtain ⟨c1, c2, pre, c3, c4⟩ := hcore
          by_cases ht : t = [2] ∨ t = [3]
          · rw [if_pos ht]
            match h4 : Bytes.readString sub' with
            | (.err, _) => simp
            | (.panic, _) => have := readString_no_panic sub'; simp [h4] at this
            | (.ok v, dd) =>
              simp only [ne_eq, reduceCtorEq, not_false_eq_true, Prod.mk.injEq, Res.ok.injEq, true_and]
              rintro y d' ⟨rfl, rfl⟩
              obtain ⟨g1, -⟩ := readString_shorter _ _ _ h4
              refine ⟨c1, c2, by rcases ht with rfl | rfl <;> simp, pre, ?_, c4⟩
              have : (if t.headD 0 = 1 then ([] : List UInt8) else [0]) = [0] := by rcases ht with rfl | rfl <;> decide
              show d = pre ++ v ++ (if t.headD 0 = 1 then [] else [0]) ++ dd ++ tl
              rw [this, c3, g1]; simp
          · rw [if_neg ht]
            by_cases h1 : t = [1]
            · rw [if_pos h1]
              simp only [ne_eq, reduceCtorEq, not_false_eq_true, Prod.mk.injEq, Res.ok.injEq, true_and]
              rintro y d' ⟨rfl, rfl⟩
              subst h1
              exact ⟨c1, c2, by simp, pre, by simpa using c3, c4⟩
            · rw [if_neg h1]; simp

/-- C35: for any data, iterating over subsections, sub-subsections and indices ends after at most as many items as there are
bytes, without panicking, and yields nothing after an error; every item lies in the data; reading tags, integers and strings
never panics. -/
theorem C35_untrusted (e : Endianness) (d : List UInt8) :
    (∃ ys f, Runs (subsectionNext e) d ys f ∧ ys.length ≤ d.length ∧ f ≠ .panic) ∧
    (∃ ys f, Runs (subsubsectionNext e) d ys f ∧ ys.length ≤ d.length ∧ f ≠ .panic) ∧
    (∃ ys f, Runs indexNext d ys f ∧ ys.length ≤ d.length ∧ f ≠ .panic) ∧
    (∀ d', subsectionNext e d = (.err, d') → subsectionNext e d' = (.ok none, [])) ∧
    (∀ d', subsubsectionNext e d = (.err, d') → subsubsectionNext e d' = (.ok none, [])) ∧
    (∀ d', indexNext d = (.err, d') → indexNext d' = (.ok none, [])) ∧
    (∀ y d', subsectionNext e d = (.ok (some y), d') → d.length = y.length + d'.length ∧
      ∃ pre, d = pre ++ y.vendor ++ [0] ++ y.data ++ d' ∧ pre.length = 4) ∧
    (∀ y d', subsubsectionNext e d = (.ok (some y), d') → d.length = y.length + d'.length ∧
      ∃ pre, d = pre ++ y.indices ++ (if y.tag = 1 then [] else [0]) ++ y.data ++ d' ∧ pre.length = 5) ∧
    (readTag d).1 ≠ .panic ∧ (readInteger d).1 ≠ .panic ∧ (readStr d).1 ≠ .panic := by
  refine ⟨fuse_runs ?_ ?_ d, fuse_runs ?_ ?_ d, fuse_runs ?_ ?_ d, fun d' h => fuseNext_fused h, fun d' h => fuseNext_fused h,
    fun d' h => fuseNext_fused h, ?_, ?_, ?_, readUleb_no_panic d, readString_no_panic d⟩
  · intro d x d' h
    obtain ⟨h1, h2, -⟩ := (parse_sub_props e d).2 x d' h
    omega
  · exact fun d => (parse_sub_props e d).1
  · intro d x d' h
    obtain ⟨h1, h2, -⟩ := (parse_ss_props e d).2 x d' h
    omega
  · exact fun d => (parse_ss_props e d).1
  · intro d x d' h
    unfold parseIndex at h
    split at h
    · rename_i hu
      split at h
      · simp only [Prod.mk.injEq, Res.ok.injEq] at h
        obtain ⟨rfl, rfl⟩ := h
        exact readUleb_consumes hu
      · simp at h
    · simp at h
    · simp at h
  · intro d
    unfold parseIndex
    have := readUleb_no_panic d
    split
    · split <;> simp
    · simp
    · simp_all
  · intro y d' h
    obtain ⟨h1, -, h2⟩ := (parse_sub_props e d).2 y d' (fuseNext_some_iff.1 h).2
    exact ⟨h1, h2⟩
  · intro y d' h
    obtain ⟨h1, -, -, h2⟩ := (parse_ss_props e d).2 y d' (fuseNext_some_iff.1 h).2
    exact ⟨h1, h2⟩
  · unfold readTag
    have := readUleb_no_panic d
    split
    · simp
    · split <;> simp_all

/-- C35: an empty section is valid and has no subsections; otherwise the first byte has to be the version `A`. -/
theorem C35_version (data : List UInt8) :
    (data = [] → subsections (sectionNew data).1 (sectionNew data).2 = .ok []) ∧
    (∀ tl, data = 0x41 :: tl → subsections (sectionNew data).1 (sectionNew data).2 = .ok tl) ∧
    (∀ v tl, data = v :: tl → v ≠ 0x41 → subsections (sectionNew data).1 (sectionNew data).2 = .err) := by
  refine ⟨fun h => by subst h; rfl, fun tl h => by subst h; rfl, fun v tl h hv => ?_⟩
  subst h
  exact if_pos hv

/-- C35: indices can also be written as raw data without the terminator, and attributes as raw data: the result is the same as
writing them one by one. -/
theorem C35_raw (w : Writer) (is : List Nat) (as : List Attribute) (hw : w.subsection ≠ 0 ∧ w.subsubsection ≠ 0)
    (hl : w.data.length + (is.map ulebSize).sum + (as.map Attribute.size).sum < 2 ^ 32) :
    w.indices (is.flatMap fun i => (writeUleb [] i).1) = ((each Writer.index w is).bind fun w => w.index 0) ∧
    ∀ raw, each Attribute.write w as = .ok { w with data := w.data ++ raw } →
      w.attributes raw = .ok { w with data := w.data ++ raw } := by
  constructor
  · have h1 := each_spec Writer.index uleb InSS (fun w b h => h) is (fun w i _ h _ => append_ok w h _) w hw
      (by rw [length_flatMap _ ulebSize _ fun v _ => (uleb_shape v).1]; omega)
    rw [h1]
    simp only [Res.ok_bind, Writer.indices, Writer.index]
    rw [append_ok w hw, append_ok _ (show InSS { w with data := w.data ++ is.flatMap uleb } from hw)]
    have h0 : (writeUleb [] 0).1 = [0] := by simp [writeUleb, writeUlebLoop]
    rw [h0, List.append_assoc]
    rfl
  · intro raw _
    exact append_ok w hw raw

/-- An unterminated vendor name and a truncated length are errors. -/
example : subsectionNext .little [6, 0, 0, 0, 97, 98] = (.err, []) ∧ subsectionNext .little [7, 0, 0, 0, 97, 0] = (.err, []) ∧
    subsectionNext .big [0, 0, 0, 7, 97, 0, 9, 1] = (.ok (some ⟨7, [97], [9]⟩), [1]) ∧
    subsubsectionNext .big [4, 0, 0, 0, 5] = (.err, []) := by decide +kernel

end Obj.Props
