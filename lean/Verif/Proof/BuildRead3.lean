import Verif.Proof.BuildRead2
import Verif.Proof.ElfAttr
import Verif.Proof.ElfVersion
import Verif.Proof.ExportsTrie

/-! Attributes of a builder that is read. -/

namespace Obj.BuildR
open Obj Obj.Build Obj.Spec Obj.Spec.BuildR Obj.Props
open Obj.Spec.MachoF (num Each)

/-! ## Draining an iterator that takes its items from the front -/

theorem drain_enc {α : Type} {parse : List UInt8 → Res α × List UInt8} (P : List UInt8 → Prop) (enc : α → List UInt8) (ok : α → Prop)
    (hP : ∀ a b, P (a ++ b) → P b) (hne : ∀ x, enc x ≠ [])
    (h : ∀ d, P d → ∀ x d', parse d = (.ok x, d') ↔ d = enc x ++ d' ∧ ok x) (n : Nat) (d : List UInt8) (hd : P d) (hn : d.length < n) (xs : List α) :
    Elf.drain (fuseNext parse) n d = .ok xs ↔ d = xs.flatMap enc ∧ ∀ x ∈ xs, ok x := by
  induction n generalizing d xs with
  | zero => omega
  | succ n ih =>
    rw [Elf.drain]
    by_cases h0 : d = []
    · subst h0
      rw [fuseNext_nil]
      simp only [Res.ok.injEq]
      constructor
      · rintro rfl; exact ⟨rfl, by simp⟩
      · rintro ⟨h1, -⟩
        cases xs with
        | nil => rfl
        | cons x xs =>
          rw [List.flatMap_cons] at h1
          exact absurd (List.append_eq_nil_iff.1 h1.symm).1 (hne x)
    · match hp : parse d with
      | (.ok x, d') =>
        rw [fuseNext_item h0 hp]
        obtain ⟨h1, h2⟩ := (h d hd x d').1 hp
        have hl : d'.length < n := by
          have := List.length_pos_iff.2 (hne x)
          have := congrArg List.length h1
          rw [List.length_append] at this
          omega
        have hd' : P d' := hP (enc x) d' (h1 ▸ hd)
        simp only [Res.bind_eq_ok, Res.ok.injEq]
        constructor
        · rintro ⟨ys, h3, rfl⟩
          obtain ⟨h4, h5⟩ := (ih d' hd' hl ys).1 h3
          refine ⟨by rw [List.flatMap_cons, ← h4]; exact h1, ?_⟩
          intro y hy
          rcases List.mem_cons.1 hy with rfl | hy
          · exact h2
          · exact h5 y hy
        · rintro ⟨h3, h4⟩
          cases xs with
          | nil => exact absurd h3 h0
          | cons y ys =>
            rw [List.flatMap_cons] at h3
            have := (h d hd y (ys.flatMap enc)).2 ⟨h3, h4 y (by simp)⟩
            rw [hp] at this
            simp only [Prod.mk.injEq, Res.ok.injEq] at this
            obtain ⟨rfl, e⟩ := this
            exact ⟨ys, (ih d' hd' hl ys).2 ⟨e, fun z hz => h4 z (by simp [hz])⟩, rfl⟩
      | (.err, d') =>
        have : fuseNext parse d = (.err, []) := by unfold fuseNext; rw [if_neg h0, hp]
        rw [this]
        simp only [reduceCtorEq, false_iff]
        rintro ⟨h3, h4⟩
        cases xs with
        | nil => exact absurd h3 h0
        | cons y ys =>
          rw [List.flatMap_cons] at h3
          have := (h d hd y (ys.flatMap enc)).2 ⟨h3, h4 y (by simp)⟩
          rw [hp] at this
          simp at this
      | (.panic, d') =>
        have : (fuseNext parse d).1 = .panic := by unfold fuseNext; rw [if_neg h0, hp]
        match hq : fuseNext parse d with
        | (.ok _, _) => rw [hq] at this; simp at this
        | (.err, _) => rw [hq] at this; simp at this
        | (.panic, _) =>
          simp only [reduceCtorEq, false_iff]
          rintro ⟨h3, h4⟩
          cases xs with
          | nil => exact absurd h3 h0
          | cons y ys =>
            rw [List.flatMap_cons] at h3
            have := (h d hd y (ys.flatMap enc)).2 ⟨h3, h4 y (by simp)⟩
            rw [hp] at this
            simp at this

/-! ## Indices -/

theorem ulebBytes_ne (v : Nat) : ulebBytes v ≠ [] := by rw [ulebBytes]; split <;> simp

theorem uleb_canonical (g : List UInt8) (h : LebGroup g) (h0 : (0 : UInt8) ∉ g) : g = ulebBytes (ulebValue g) ∧ 0 < ulebValue g := by
  induction g with
  | nil => exact absurd h (by simp [LebGroup])
  | cons b bs ih =>
    simp only [List.mem_cons, not_or] at h0
    have hb : b.toNat ≠ 0 := by intro hb; exact h0.1 (by rw [← UInt8.toNat_inj]; simpa using hb.symm)
    have hlt := b.toNat_lt
    cases bs with
    | nil =>
      simp only [LebGroup] at h
      simp only [ulebValue, Nat.mul_zero, Nat.add_zero]
      rw [Nat.mod_eq_of_lt h, ulebBytes, if_pos h]
      refine ⟨?_, by omega⟩
      simp
    | cons c bs =>
      have h' : 128 ≤ b.toNat ∧ LebGroup (c :: bs) := h
      obtain ⟨e, hp⟩ := ih h'.2 h0.2
      have hv : ulebValue (b :: c :: bs) = b.toNat % 128 + 128 * ulebValue (c :: bs) := rfl
      rw [hv, ulebBytes]
      generalize ulebValue (c :: bs) = v at *
      rw [if_neg (by omega)]
      refine ⟨?_, by omega⟩
      have h1 : (b.toNat % 128 + 128 * v) / 128 = v := by omega
      have h2 : (b.toNat % 128 + 128 * v) % 128 + 128 = b.toNat := by omega
      rw [h1, h2, ← e]
      simp

theorem uleb_group (n v : Nat) (hv : v < 128 ^ n) (h0 : 0 < v) :
    LebGroup (ulebBytes v) ∧ (ulebBytes v).length ≤ n ∧ ulebValue (ulebBytes v) = v ∧ (0 : UInt8) ∉ ulebBytes v := by
  induction n generalizing v with
  | zero => simp at hv; omega
  | succ n ih =>
    rw [ulebBytes]
    by_cases h : v < 128
    · rw [if_pos h]
      have hn : (UInt8.ofNat v).toNat = v := by rw [UInt8.toNat_ofNat']; omega
      refine ⟨by simp only [LebGroup, hn]; exact h, by simp, by simp only [ulebValue, hn]; omega, ?_⟩
      intro hm
      simp only [List.mem_singleton] at hm
      have := congrArg UInt8.toNat hm
      rw [hn] at this
      simp at this
      omega
    · rw [if_neg h]
      have hd : v / 128 < 128 ^ n := by rw [Nat.pow_succ] at hv; omega
      obtain ⟨a1, a2, a3, a4⟩ := ih (v / 128) hd (by omega)
      have hn : (UInt8.ofNat (v % 128 + 128)).toNat = v % 128 + 128 := by rw [UInt8.toNat_ofNat']; omega
      refine ⟨?_, by simp; omega, ?_, ?_⟩
      · cases hb : ulebBytes (v / 128) with
        | nil => exact absurd hb (ulebBytes_ne _)
        | cons c bs =>
          rw [hb] at a1
          exact ⟨by omega, a1⟩
      · rw [ulebValue, hn, a3]; omega
      · simp only [List.mem_cons, not_or]
        refine ⟨?_, a4⟩
        intro hm
        have := congrArg UInt8.toNat hm
        rw [hn] at this
        simp at this

theorem parseIndex_iff (d : List UInt8) (h0 : (0 : UInt8) ∉ d) (v : Nat) (d' : List UInt8) :
    Attr.parseIndex d = (.ok v, d') ↔ d = ulebBytes v ++ d' ∧ 0 < v ∧ v < 2 ^ 32 := by
  unfold Attr.parseIndex
  constructor
  · intro h
    match hr : Bytes.readUleb d with
    | (.ok w, tl) =>
      rw [hr] at h
      simp only [] at h
      split at h
      · simp only [Prod.mk.injEq, Res.ok.injEq] at h
        obtain ⟨rfl, rfl⟩ := h
        obtain ⟨g, h1, h2, h3, h4, h5⟩ := (readUleb_ok_iff _ _ _).1 hr
        obtain ⟨e, hp⟩ := uleb_canonical g h2 (fun hm => h0 (by rw [h1]; simp [hm]))
        rw [h4] at e hp
        exact ⟨by rw [← e]; exact h1, hp, by assumption⟩
      · cases h
    | (.err, tl) => rw [hr] at h; cases h
    | (.panic, tl) => rw [hr] at h; cases h
  · rintro ⟨h1, h2, h3⟩
    obtain ⟨a1, a2, a3, a4⟩ := uleb_group 5 v (by simp only [Nat.reducePow] at *; omega) h2
    have : Bytes.readUleb d = (.ok v, d') := (readUleb_ok_iff _ _ _).2 ⟨_, h1, a1, by omega, a3, by simp only [Nat.reducePow] at *; omega⟩
    rw [this]
    simp only []
    rw [if_pos (by simpa using h3)]

theorem parseIndex_np (d : List UInt8) : (Attr.parseIndex d).1 ≠ .panic := by
  unfold Attr.parseIndex
  have := readUleb_no_panic d
  match h : Bytes.readUleb d with
  | (.ok v, tl) => simp only []; split <;> simp
  | (.err, tl) => simp
  | (.panic, tl) => rw [h] at this; exact absurd rfl this

theorem indices_iff (d : List UInt8) (h0 : (0 : UInt8) ∉ d) (is : List Nat) :
    Elf.drain Attr.indexNext (d.length + 1) d = .ok is ↔ d = is.flatMap ulebBytes ∧ ∀ i ∈ is, 0 < i ∧ i < 2 ^ 32 :=
  drain_enc (fun d => (0 : UInt8) ∉ d) ulebBytes (fun v => 0 < v ∧ v < 2 ^ 32) (fun a b h hb => h (by simp [hb])) ulebBytes_ne
    (fun d hd x d' => parseIndex_iff d hd x d') _ d h0 (by omega) is

theorem parse_drain_np {α : Type} (parse : List UInt8 → Res α × List UInt8) (hc : ∀ d x d', parse d = (.ok x, d') → d'.length < d.length)
    (hp : ∀ d, (parse d).1 ≠ .panic) (d : List UInt8) : Elf.drain (fuseNext parse) (d.length + 1) d ≠ .panic := by
  obtain ⟨xs, e, h1, h2, h3⟩ := fuse_runs hc hp d
  exact Elf.drain_no_panic ⟨xs, e, h1, by omega, h3⟩

theorem parseIndex_consumes (d : List UInt8) (x : Nat) (d' : List UInt8) (h : Attr.parseIndex d = (.ok x, d')) : d'.length < d.length := by
  unfold Attr.parseIndex at h
  match hr : Bytes.readUleb d with
  | (.ok v, tl) =>
    rw [hr] at h
    simp only [] at h
    split at h
    · simp only [Prod.mk.injEq] at h
      obtain ⟨-, rfl⟩ := h
      exact readUleb_consumes hr
    · cases h
  | (.err, tl) => rw [hr] at h; cases h
  | (.panic, tl) => rw [hr] at h; cases h

theorem checkIndices_iff (len : Nat) (is l : List Nat) : checkIndices len is = .ok l ↔ (∀ i ∈ is, 0 < i ∧ i < len) ∧ l = is.map (· - 1) := by
  induction is generalizing l with
  | nil => simp only [checkIndices, Res.ok.injEq]; constructor
           · rintro rfl; simp
           · rintro ⟨-, rfl⟩; rfl
  | cons i is ih =>
    rw [checkIndices]
    by_cases h1 : len ≤ i
    · rw [if_pos h1]
      simp only [reduceCtorEq, false_iff]
      rintro ⟨h, -⟩
      have := h i (by simp); omega
    · rw [if_neg h1]
      by_cases h2 : i = 0
      · rw [if_pos h2]
        simp only [reduceCtorEq, false_iff]
        rintro ⟨h, -⟩
        have := h i (by simp); omega
      · rw [if_neg h2]
        simp only [Res.bind_eq_ok, Res.ok.injEq, ih]
        constructor
        · rintro ⟨_, ⟨h3, rfl⟩, rfl⟩
          refine ⟨?_, rfl⟩
          intro j hj
          rcases List.mem_cons.1 hj with rfl | hj
          · omega
          · exact h3 j hj
        · rintro ⟨h3, rfl⟩
          exact ⟨_, ⟨fun j hj => h3 j (by simp [hj]), rfl⟩, rfl⟩

theorem checkIndices_np (len : Nat) (is : List Nat) (h : ∀ i ∈ is, 0 < i) : checkIndices len is ≠ .panic := by
  induction is with
  | nil => simp [checkIndices]
  | cons i is ih =>
    have := h i (by simp)
    rw [checkIndices]
    split
    · simp
    · rw [if_neg (by omega)]
      exact Res.bind_no_panic (ih fun j hj => h j (by simp [hj])) fun _ _ => by simp

/-- The list of a scope. -/
theorem scope_list (len : Nat) (d : List UInt8) (h0 : (0 : UInt8) ∉ d) (l : List Nat) :
    ((Elf.drain Attr.indexNext (d.length + 1) d).bind fun is => checkIndices len is) = .ok l ↔
      d = l.flatMap (fun i => ulebBytes (i + 1)) ∧ ∀ i ∈ l, i + 1 < len ∧ i + 1 < 2 ^ 32 := by
  simp only [Res.bind_eq_ok, indices_iff d h0, checkIndices_iff]
  constructor
  · rintro ⟨is, ⟨h1, h2⟩, h3, rfl⟩
    have he : is.map (fun i => i - 1 + 1) = is := by
      conv => rhs; rw [← List.map_id is]
      apply List.map_congr_left
      intro i hi
      have := h2 i hi
      simp only [id]; omega
    constructor
    · rw [List.flatMap_map]
      have : (is.flatMap fun i => ulebBytes (i - 1 + 1)) = (is.map (fun i => i - 1 + 1)).flatMap ulebBytes := by rw [List.flatMap_map]
      rw [this, he]; exact h1
    · intro i hi
      obtain ⟨j, hj, rfl⟩ := List.mem_map.1 hi
      have := h2 j hj
      have := h3 j hj
      omega
  · rintro ⟨h1, h2⟩
    refine ⟨l.map (· + 1), ⟨by rw [List.flatMap_map]; exact h1, ?_⟩, ?_, by rw [List.map_map]; exact (List.map_id l).symm⟩
    · intro i hi
      obtain ⟨j, hj, rfl⟩ := List.mem_map.1 hi
      exact ⟨by omega, (h2 j hj).2⟩
    · intro i hi
      obtain ⟨j, hj, rfl⟩ := List.mem_map.1 hi
      exact ⟨by omega, (h2 j hj).1⟩

theorem scope_list_np (len : Nat) (d : List UInt8) (h0 : (0 : UInt8) ∉ d) :
    ((Elf.drain Attr.indexNext (d.length + 1) d).bind fun is => checkIndices len is) ≠ .panic :=
  Res.bind_no_panic (parse_drain_np _ parseIndex_consumes parseIndex_np d) fun is h =>
    checkIndices_np _ _ fun i hi => (((indices_iff d h0 is).1 h).2 i hi).1

/-! ## Sub-subsections and subsections as they are read -/

/-- The bytes of a sub-subsection that was read. -/
def rawSubSub (en : Endianness) (x : Attr.Subsubsection) : List UInt8 :=
  x.tag :: wr en 4 x.length ++ ((if x.tag = 1 then [] else x.indices ++ [0]) ++ x.data)

/-- It is consistent. -/
def RawSubSubOk (en : Endianness) (x : Attr.Subsubsection) : Prop :=
  (x.tag = 1 ∧ x.indices = [] ∨ x.tag = 2 ∨ x.tag = 3) ∧ (0 : UInt8) ∉ x.indices ∧ x.length = (rawSubSub en x).length ∧ x.length < 2 ^ 32

/-- The bytes of a subsection that was read. -/
def rawSub (en : Endianness) (s : Attr.Subsection) : List UInt8 := wr en 4 s.length ++ (s.vendor ++ [0] ++ s.data)

def RawSubOk (en : Endianness) (s : Attr.Subsection) : Prop := (0 : UInt8) ∉ s.vendor ∧ s.length = (rawSub en s).length ∧ s.length < 2 ^ 32

theorem readBytes_split (d : List UInt8) (n : Nat) (img r : List UInt8) : Bytes.readBytes d n = (.ok img, r) ↔ d = img ++ r ∧ img.length = n := by
  unfold Bytes.readBytes
  split
  · simp only [Prod.mk.injEq, Res.ok.injEq]
    constructor
    · rintro ⟨rfl, rfl⟩; exact ⟨(List.take_append_drop n d).symm, by rw [List.length_take]; omega⟩
    · rintro ⟨rfl, rfl⟩; simp
  · simp only [Prod.mk.injEq, reduceCtorEq, false_and, false_iff]
    rintro ⟨rfl, rfl⟩
    simp at *

theorem readBytes_np (d : List UInt8) (n : Nat) : (Bytes.readBytes d n).1 ≠ .panic := by unfold Bytes.readBytes; split <;> simp
theorem skip_np (d : List UInt8) (n : Nat) : (Bytes.skip d n).1 ≠ .panic := by unfold Bytes.skip; split <;> simp

theorem skip_split (d : List UInt8) (n : Nat) (r : List UInt8) : Bytes.skip d n = (.ok (), r) ↔ ∃ a, d = a ++ r ∧ a.length = n := by
  unfold Bytes.skip
  split
  · simp only [Prod.mk.injEq, true_and]
    constructor
    · rintro rfl; exact ⟨d.take n, (List.take_append_drop n d).symm, by rw [List.length_take]; omega⟩
    · rintro ⟨a, rfl, rfl⟩; simp
  · simp only [Prod.mk.injEq, reduceCtorEq, false_and, false_iff]
    rintro ⟨a, rfl, rfl⟩
    simp at *

theorem parseSub_iff (en : Endianness) (d : List UInt8) (s : Attr.Subsection) (d' : List UInt8) :
    Attr.parseSubsection en d = (.ok s, d') ↔ d = rawSub en s ++ d' ∧ RawSubOk en s := by
  have hwr : ∀ n, (wr en 4 n).length = 4 := fun n => length_wr _ _ _
  constructor
  · intro h
    unfold Attr.parseSubsection Bytes.read at h
    match h1 : Bytes.readBytes d 4 with
    | (.err, _) => rw [h1] at h; cases h
    | (.panic, _) => rw [h1] at h; cases h
    | (.ok img, r) =>
    rw [h1] at h
    simp only [] at h
    match h2 : Bytes.readBytes d (rd en img) with
    | (.err, _) => rw [h2] at h; cases h
    | (.panic, _) => rw [h2] at h; cases h
    | (.ok sub, tl) =>
    rw [h2] at h
    simp only [] at h
    match h3 : Bytes.skip sub 4 with
    | (.err, _) => rw [h3] at h; cases h
    | (.panic, _) => rw [h3] at h; cases h
    | (.ok (), body) =>
    rw [h3] at h
    simp only [] at h
    match h4 : Bytes.readString body with
    | (.err, _) => rw [h4] at h; cases h
    | (.panic, _) => rw [h4] at h; cases h
    | (.ok vendor, rest) =>
    rw [h4] at h
    simp only [Prod.mk.injEq, Res.ok.injEq] at h
    obtain ⟨rfl, rfl⟩ := h
    obtain ⟨e1, l1⟩ := (readBytes_split _ _ _ _).1 h1
    obtain ⟨e2, l2⟩ := (readBytes_split _ _ _ _).1 h2
    obtain ⟨a, e3, l3⟩ := (skip_split _ _ _).1 h3
    obtain ⟨e4, l4⟩ := (Trie.cstr_iff _ _ _).1 h4
    have hai : a = img := by
      rw [e3, List.append_assoc] at e2
      exact (List.append_inj (e2.symm.trans e1) (by omega)).1
    subst hai
    have hraw : rawSub en ⟨rd en a, vendor, rest⟩ = sub := by
      unfold rawSub
      simp only []
      have hw : wr en 4 (rd en a) = a := by rw [← l1]; exact wr_rd en a
      rw [hw, e3, e4]
      simp
    refine ⟨by rw [hraw]; exact e2, l4, by rw [hraw]; exact l2.symm, ?_⟩
    have := rd_lt en a
    rw [l1] at this
    simpa using this
  · rintro ⟨h1, h2, h3, h4⟩
    have hb : Bytes.readBytes d 4 = (.ok (wr en 4 s.length), (s.vendor ++ [0] ++ s.data) ++ d') :=
      (readBytes_split _ _ _ _).2 ⟨by rw [h1]; unfold rawSub; simp, hwr _⟩
    have hrd : rd en (wr en 4 s.length) = s.length := rd_wr en 4 s.length (by simpa using h4)
    have hc : Bytes.readBytes d s.length = (.ok (rawSub en s), d') := (readBytes_split _ _ _ _).2 ⟨h1, h3.symm⟩
    have hs : Bytes.skip (rawSub en s) 4 = (.ok (), s.vendor ++ [0] ++ s.data) := (skip_split _ _ _).2 ⟨wr en 4 s.length, rfl, hwr _⟩
    have hv : Bytes.readString (s.vendor ++ [0] ++ s.data) = (.ok s.vendor, s.data) := (Trie.cstr_iff _ _ _).2 ⟨by simp, h2⟩
    unfold Attr.parseSubsection Bytes.read
    rw [hb]
    simp only [hrd]
    rw [hc]
    simp only []
    rw [hs]
    simp only []
    rw [hv]

theorem parseSub_np (en : Endianness) (d : List UInt8) : (Attr.parseSubsection en d).1 ≠ .panic := by
  unfold Attr.parseSubsection Bytes.read
  have n1 := readBytes_np d
  have n2 := skip_np
  have n3 := Trie.readString_no_panic'
  split
  · split
    · split
      · split
        · simp
        · simp
        · rename_i h; exact absurd (congrArg Prod.fst h) (n3 _)
      · simp
      · rename_i h; exact absurd (congrArg Prod.fst h) (n2 _ _)
    · simp
    · rename_i h; exact absurd (congrArg Prod.fst h) (n1 _)
  · simp
  · rename_i h; exact absurd (congrArg Prod.fst h) (n1 _)

theorem parseSubSub_iff (en : Endianness) (d : List UInt8) (x : Attr.Subsubsection) (d' : List UInt8) :
    Attr.parseSubsubsection en d = (.ok x, d') ↔ d = rawSubSub en x ++ d' ∧ RawSubSubOk en x := by
  have hwr : ∀ n, (wr en 4 n).length = 4 := fun n => length_wr _ _ _
  constructor
  · intro h
    unfold Attr.parseSubsubsection Bytes.read at h
    match h0 : Bytes.readBytes d 1 with
    | (.err, _) => rw [h0] at h; cases h
    | (.panic, _) => rw [h0] at h; cases h
    | (.ok t, d1) =>
    rw [h0] at h
    simp only [] at h
    match h1 : Bytes.readBytes d1 4 with
    | (.err, _) => rw [h1] at h; cases h
    | (.panic, _) => rw [h1] at h; cases h
    | (.ok img, r) =>
    rw [h1] at h
    simp only [] at h
    match h2 : Bytes.readBytes d (rd en img) with
    | (.err, _) => rw [h2] at h; cases h
    | (.panic, _) => rw [h2] at h; cases h
    | (.ok sub, tl) =>
    rw [h2] at h
    simp only [] at h
    match h3 : Bytes.skip sub 5 with
    | (.err, _) => rw [h3] at h; cases h
    | (.panic, _) => rw [h3] at h; cases h
    | (.ok (), body) =>
    rw [h3] at h
    simp only [] at h
    obtain ⟨e0, l0⟩ := (readBytes_split _ _ _ _).1 h0
    obtain ⟨e1, l1⟩ := (readBytes_split _ _ _ _).1 h1
    obtain ⟨e2, l2⟩ := (readBytes_split _ _ _ _).1 h2
    obtain ⟨a, e3, l3⟩ := (skip_split _ _ _).1 h3
    have hai : a = t ++ img := by
      rw [e3, List.append_assoc] at e2
      rw [e1, ← List.append_assoc] at e0
      exact (List.append_inj (e2.symm.trans e0) (by simp; omega)).1
    have hw : wr en 4 (rd en img) = img := by rw [← l1]; exact wr_rd en img
    have hlt : rd en img < 2 ^ 32 := by
      have := rd_lt en img
      rw [l1] at this
      simpa using this
    obtain ⟨b, rfl⟩ : ∃ b, t = [b] := by
      cases t with
      | nil => simp at l0
      | cons b bs =>
        cases bs with
        | nil => exact ⟨b, rfl⟩
        | cons _ _ => simp at l0
    simp only [List.cons.injEq, and_true, List.headD_cons] at h
    by_cases ht : b = 2 ∨ b = 3
    · rw [if_pos ht] at h
      match h4 : Bytes.readString body with
      | (.err, _) => rw [h4] at h; cases h
      | (.panic, _) => rw [h4] at h; cases h
      | (.ok indices, rest) =>
      rw [h4] at h
      simp only [Prod.mk.injEq, Res.ok.injEq] at h
      obtain ⟨rfl, rfl⟩ := h
      obtain ⟨e4, l4⟩ := (Trie.cstr_iff _ _ _).1 h4
      have hraw : rawSubSub en ⟨b, rd en img, indices, rest⟩ = sub := by
        unfold rawSubSub
        simp only []
        rw [hw, e3, e4, hai, if_neg (by rcases ht with rfl | rfl <;> decide)]
        simp
      exact ⟨by rw [hraw]; exact e2, .inr ht, l4, by rw [hraw]; exact l2.symm, hlt⟩
    · rw [if_neg ht] at h
      by_cases h1' : b = 1
      · rw [if_pos h1'] at h
        simp only [Prod.mk.injEq, Res.ok.injEq] at h
        obtain ⟨rfl, rfl⟩ := h
        have hraw : rawSubSub en ⟨b, rd en img, [], body⟩ = sub := by
          unfold rawSubSub
          simp only []
          rw [hw, e3, hai, if_pos h1']
          simp
        exact ⟨by rw [hraw]; exact e2, .inl ⟨h1', rfl⟩, by simp, by rw [hraw]; exact l2.symm, hlt⟩
      · rw [if_neg h1'] at h; cases h
  · rintro ⟨h1, h2, h3, h4, h5⟩
    have h0 : Bytes.readBytes d 1 = (.ok [x.tag], wr en 4 x.length ++ (((if x.tag = 1 then [] else x.indices ++ [0]) ++ x.data) ++ d')) :=
      (readBytes_split _ _ _ _).2 ⟨by rw [h1]; unfold rawSubSub; simp, rfl⟩
    have hb := (readBytes_split (wr en 4 x.length ++ (((if x.tag = 1 then [] else x.indices ++ [0]) ++ x.data) ++ d')) 4 _ _).2 ⟨rfl, hwr _⟩
    have hrd : rd en (wr en 4 x.length) = x.length := rd_wr en 4 x.length (by simpa using h5)
    have hc : Bytes.readBytes d x.length = (.ok (rawSubSub en x), d') := (readBytes_split _ _ _ _).2 ⟨h1, h4.symm⟩
    have hs : Bytes.skip (rawSubSub en x) 5 = (.ok (), (if x.tag = 1 then [] else x.indices ++ [0]) ++ x.data) :=
      (skip_split _ _ _).2 ⟨x.tag :: wr en 4 x.length, rfl, by simp [hwr]⟩
    unfold Attr.parseSubsubsection Bytes.read
    rw [h0]
    simp only []
    rw [hb]
    simp only [hrd]
    rw [hc]
    simp only []
    rw [hs]
    simp only [List.cons.injEq, and_true, List.headD_cons]
    rcases h2 with ⟨ht, hi⟩ | ht
    · have : ¬ (x.tag = 2 ∨ x.tag = 3) := by rw [ht]; decide
      rw [if_neg this, if_pos ht, if_pos ht, List.nil_append]
      simp only [Prod.mk.injEq, Res.ok.injEq, and_true]
      cases x
      simp only at hi
      rw [hi]
    · rw [if_pos ht]
      have : x.tag ≠ 1 := by rcases ht with ht | ht <;> rw [ht] <;> decide
      rw [if_neg this]
      have hv : Bytes.readString (x.indices ++ [0] ++ x.data) = (.ok x.indices, x.data) := (Trie.cstr_iff _ _ _).2 ⟨by simp, h3⟩
      rw [hv]

theorem parseSubSub_np (en : Endianness) (d : List UInt8) : (Attr.parseSubsubsection en d).1 ≠ .panic := by
  unfold Attr.parseSubsubsection Bytes.read
  have n1 := readBytes_np
  have n2 := skip_np
  have n3 := Trie.readString_no_panic'
  split
  · split
    · split
      · split
        · split
          · split
            · simp
            · simp
            · rename_i h; exact absurd (congrArg Prod.fst h) (n3 _)
          · split <;> simp
        · simp
        · rename_i h; exact absurd (congrArg Prod.fst h) (n2 _ _)
      · simp
      · rename_i h; exact absurd (congrArg Prod.fst h) (n1 _ _)
    · simp
    · rename_i h; exact absurd (congrArg Prod.fst h) (n1 _ _)
  · simp
  · rename_i h; exact absurd (congrArg Prod.fst h) (n1 _ _)

theorem rawSub_ne (en : Endianness) (s : Attr.Subsection) : rawSub en s ≠ [] := by unfold rawSub; simp
theorem rawSubSub_ne (en : Endianness) (s : Attr.Subsubsection) : rawSubSub en s ≠ [] := by unfold rawSubSub; simp

theorem subs_iff (en : Endianness) (d : List UInt8) (ss : List Attr.Subsection) :
    Elf.drain (Attr.subsectionNext en) (d.length + 1) d = .ok ss ↔ d = ss.flatMap (rawSub en) ∧ ∀ s ∈ ss, RawSubOk en s :=
  drain_enc (fun _ => True) (rawSub en) (RawSubOk en) (fun _ _ _ => trivial) (rawSub_ne en) (fun d _ x d' => parseSub_iff en d x d') _ d trivial (by omega) ss

theorem subSubs_iff (en : Endianness) (d : List UInt8) (ss : List Attr.Subsubsection) :
    Elf.drain (Attr.subsubsectionNext en) (d.length + 1) d = .ok ss ↔ d = ss.flatMap (rawSubSub en) ∧ ∀ s ∈ ss, RawSubSubOk en s :=
  drain_enc (fun _ => True) (rawSubSub en) (RawSubSubOk en) (fun _ _ _ => trivial) (rawSubSub_ne en) (fun d _ x d' => parseSubSub_iff en d x d') _ d trivial
    (by omega) ss

theorem consumes_of {α : Type} {enc : α → List UInt8} (hne : ∀ x, enc x ≠ []) {d d' : List UInt8} {x : α} (h : d = enc x ++ d') : d'.length < d.length := by
  have := List.length_pos_iff.2 (hne x)
  rw [h, List.length_append]; omega

theorem subs_np (en : Endianness) (d : List UInt8) : Elf.drain (Attr.subsectionNext en) (d.length + 1) d ≠ .panic :=
  parse_drain_np _ (fun d x d' h => consumes_of (rawSub_ne en) ((parseSub_iff en d x d').1 h).1) (parseSub_np en) d
theorem subSubs_np (en : Endianness) (d : List UInt8) : Elf.drain (Attr.subsubsectionNext en) (d.length + 1) d ≠ .panic :=
  parse_drain_np _ (fun d x d' h => consumes_of (rawSubSub_ne en) ((parseSubSub_iff en d x d').1 h).1) (parseSubSub_np en) d

/-! ## Attributes -/

theorem scope_sections (n m : Nat) (x : Attr.Subsubsection) (ht : x.tag = 2) (h0 : (0 : UInt8) ∉ x.indices) (sc : AttrScope) :
    readScope n m x = .ok sc ↔ ∃ l, sc = .sections l ∧ x.indices = l.flatMap (fun i => ulebBytes (i + 1)) ∧ ∀ i ∈ l, i + 1 < n ∧ i + 1 < 2 ^ 32 := by
  unfold readScope
  rw [if_neg (by rw [ht]; decide), if_pos ht]
  simp only [Res.bind_eq_ok, Res.ok.injEq]
  constructor
  · rintro ⟨is, h1, l, h2, rfl⟩
    exact ⟨l, rfl, (scope_list n x.indices h0 l).1 (Res.bind_eq_ok.2 ⟨is, h1, h2⟩)⟩
  · rintro ⟨l, rfl, h⟩
    obtain ⟨is, h1, h2⟩ := Res.bind_eq_ok.1 ((scope_list n x.indices h0 l).2 h)
    exact ⟨is, h1, l, h2, rfl⟩

theorem scope_symbols (n m : Nat) (x : Attr.Subsubsection) (ht : x.tag = 3) (h0 : (0 : UInt8) ∉ x.indices) (sc : AttrScope) :
    readScope n m x = .ok sc ↔ ∃ l, sc = .symbols l ∧ x.indices = l.flatMap (fun i => ulebBytes (i + 1)) ∧ ∀ i ∈ l, i + 1 < m ∧ i + 1 < 2 ^ 32 := by
  unfold readScope
  rw [if_neg (by rw [ht]; decide), if_neg (by rw [ht]; decide), if_pos ht]
  simp only [Res.bind_eq_ok, Res.ok.injEq]
  constructor
  · rintro ⟨is, h1, l, h2, rfl⟩
    exact ⟨l, rfl, (scope_list m x.indices h0 l).1 (Res.bind_eq_ok.2 ⟨is, h1, h2⟩)⟩
  · rintro ⟨l, rfl, h⟩
    obtain ⟨is, h1, h2⟩ := Res.bind_eq_ok.1 ((scope_list m x.indices h0 l).2 h)
    exact ⟨is, h1, l, h2, rfl⟩

theorem scope_file (n m : Nat) (x : Attr.Subsubsection) (ht : x.tag = 1) (sc : AttrScope) : readScope n m x = .ok sc ↔ sc = .file := by
  unfold readScope
  rw [if_pos ht, Res.ok.injEq]; exact eq_comm

theorem raw_eq (en : Endianness) (x : Attr.Subsubsection) (sc : AttrScope) (hl : x.length = (rawSubSub en x).length) (ht : x.tag = scopeTag sc)
    (hb : (if x.tag = 1 then [] else x.indices ++ [0]) = scopeBytes sc) : rawSubSub en x = subSubBytes en ⟨sc, x.data⟩ := by
  have hlen : x.length = 5 + (scopeBytes sc ++ x.data).length := by
    rw [hl]
    unfold rawSubSub
    rw [hb]
    simp [Nat.add_comm]
    omega
  unfold rawSubSub subSubBytes
  simp only []
  rw [hb, hlen, ht]

theorem scope_fwd (en : Endianness) (n m : Nat) (x : Attr.Subsubsection) (h : RawSubSubOk en x) (sc : AttrScope) (hs : readScope n m x = .ok sc) :
    rawSubSub en x = subSubBytes en ⟨sc, x.data⟩ ∧ ScopeOk n m sc := by
  obtain ⟨h1, h2, h3, h4⟩ := h
  rcases h1 with ⟨ht, -⟩ | ht | ht
  · have := (scope_file n m x ht sc).1 hs
    subst this
    exact ⟨raw_eq en x _ h3 ht (by rw [if_pos ht]; rfl), trivial⟩
  · obtain ⟨l, rfl, e, hl⟩ := (scope_sections n m x ht h2 sc).1 hs
    exact ⟨raw_eq en x _ h3 ht (by rw [if_neg (by rw [ht]; decide), e]; rfl), hl⟩
  · obtain ⟨l, rfl, e, hl⟩ := (scope_symbols n m x ht h2 sc).1 hs
    exact ⟨raw_eq en x _ h3 ht (by rw [if_neg (by rw [ht]; decide), e]; rfl), hl⟩

theorem no_zero (l : List Nat) (h : ∀ i ∈ l, i + 1 < 2 ^ 32) : (0 : UInt8) ∉ l.flatMap (fun i => ulebBytes (i + 1)) := by
  intro hm
  obtain ⟨i, hi, hz⟩ := List.mem_flatMap.1 hm
  have hi := h i hi
  exact (uleb_group 5 (i + 1) (by simp only [Nat.reducePow] at *; omega) (by omega)).2.2.2 hz

theorem scope_bwd (en : Endianness) (n m : Nat) (y : AttrSubSub) (hs : ScopeOk n m y.scope) (hl : (subSubBytes en y).length < 2 ^ 32) :
    ∃ x, RawSubSubOk en x ∧ readScope n m x = .ok y.scope ∧ x.data = y.data ∧ rawSubSub en x = subSubBytes en y := by
  obtain ⟨sc, d⟩ := y
  have hlen : (subSubBytes en ⟨sc, d⟩).length = 5 + (scopeBytes sc ++ d).length := by
    unfold subSubBytes
    simp [Nat.add_comm]
    omega
  simp only at hs
  cases sc with
  | file =>
    let x : Attr.Subsubsection := ⟨1, (subSubBytes en ⟨.file, d⟩).length, [], d⟩
    have hr : rawSubSub en x = subSubBytes en ⟨.file, d⟩ := by
      unfold rawSubSub
      show _ :: wr en 4 (subSubBytes en ⟨.file, d⟩).length ++ _ = _
      rw [hlen, if_pos rfl]
      rfl
    exact ⟨x, ⟨.inl ⟨rfl, rfl⟩, by simp [x], by rw [hr], hl⟩, (scope_file n m x rfl _).2 rfl, rfl, hr⟩
  | sections l =>
    let x : Attr.Subsubsection := ⟨2, (subSubBytes en ⟨.sections l, d⟩).length, l.flatMap (fun i => ulebBytes (i + 1)), d⟩
    have h0 : (0 : UInt8) ∉ x.indices := no_zero l fun i hi => (hs i hi).2
    have hr : rawSubSub en x = subSubBytes en ⟨.sections l, d⟩ := by
      unfold rawSubSub
      show _ :: wr en 4 (subSubBytes en ⟨.sections l, d⟩).length ++ _ = _
      rw [hlen, if_neg (by simp [x])]
      rfl
    exact ⟨x, ⟨.inr (.inl rfl), h0, by rw [hr], hl⟩, (scope_sections n m x rfl h0 _).2 ⟨l, rfl, rfl, hs⟩, rfl, hr⟩
  | symbols l =>
    let x : Attr.Subsubsection := ⟨3, (subSubBytes en ⟨.symbols l, d⟩).length, l.flatMap (fun i => ulebBytes (i + 1)), d⟩
    have h0 : (0 : UInt8) ∉ x.indices := no_zero l fun i hi => (hs i hi).2
    have hr : rawSubSub en x = subSubBytes en ⟨.symbols l, d⟩ := by
      unfold rawSubSub
      show _ :: wr en 4 (subSubBytes en ⟨.symbols l, d⟩).length ++ _ = _
      rw [hlen, if_neg (by simp [x])]
      rfl
    exact ⟨x, ⟨.inr (.inr rfl), h0, by rw [hr], hl⟩, (scope_symbols n m x rfl h0 _).2 ⟨l, rfl, rfl, hs⟩, rfl, hr⟩

theorem scope_np (en : Endianness) (n m : Nat) (x : Attr.Subsubsection) (h : RawSubSubOk en x) : readScope n m x ≠ .panic := by
  obtain ⟨-, h2, -⟩ := h
  unfold readScope
  have key : ∀ (len : Nat) (f : List Nat → AttrScope), ((Elf.drain Attr.indexNext (x.indices.length + 1) x.indices).bind fun is =>
      (checkIndices len is).bind fun l => .ok (f l)) ≠ .panic := by
    intro len f
    refine Res.bind_no_panic (parse_drain_np _ parseIndex_consumes parseIndex_np _) fun is h => Res.bind_no_panic ?_ fun _ _ => by simp
    exact checkIndices_np _ _ fun i hi => (((indices_iff _ h2 is).1 h).2 i hi).1
  repeat' split
  · simp
  · exact key _ _
  · exact key _ _
  · simp

theorem readSubSubs_np (en : Endianness) (n m : Nat) (xs : List Attr.Subsubsection) (h : ∀ x ∈ xs, RawSubSubOk en x) : readSubSubs n m xs ≠ .panic := by
  induction xs with
  | nil => simp [readSubSubs]
  | cons x xs ih =>
    rw [readSubSubs]
    exact Res.bind_no_panic (scope_np en n m x (h x (by simp))) fun _ _ => Res.bind_no_panic (ih fun y hy => h y (by simp [hy])) fun _ _ => by simp

theorem readSubSubs_fwd (en : Endianness) (n m : Nat) (xs : List Attr.Subsubsection) (h : ∀ x ∈ xs, RawSubSubOk en x) (l : List AttrSubSub)
    (hl : readSubSubs n m xs = .ok l) : xs.flatMap (rawSubSub en) = l.flatMap (subSubBytes en) ∧ ∀ y ∈ l, ScopeOk n m y.scope := by
  induction xs generalizing l with
  | nil =>
    rw [readSubSubs] at hl
    injection hl with hl
    subst hl
    exact ⟨rfl, by simp⟩
  | cons x xs ih =>
    rw [readSubSubs] at hl
    simp only [Res.bind_eq_ok, Res.ok.injEq] at hl
    obtain ⟨sc, h1, ys, h2, rfl⟩ := hl
    obtain ⟨e1, s1⟩ := scope_fwd en n m x (h x (by simp)) sc h1
    obtain ⟨e2, s2⟩ := ih (fun y hy => h y (by simp [hy])) ys h2
    refine ⟨by rw [List.flatMap_cons, List.flatMap_cons, e1, e2], ?_⟩
    intro y hy
    rcases List.mem_cons.1 hy with rfl | hy
    · exact s1
    · exact s2 y hy

theorem readSubSubs_bwd (en : Endianness) (n m : Nat) (l : List AttrSubSub) (hs : ∀ y ∈ l, ScopeOk n m y.scope) (hl : ∀ y ∈ l, (subSubBytes en y).length < 2 ^ 32) :
    ∃ xs, (∀ x ∈ xs, RawSubSubOk en x) ∧ readSubSubs n m xs = .ok l ∧ xs.flatMap (rawSubSub en) = l.flatMap (subSubBytes en) := by
  induction l with
  | nil => exact ⟨[], by simp, rfl, rfl⟩
  | cons y l ih =>
    obtain ⟨xs, a1, a2, a3⟩ := ih (fun z hz => hs z (by simp [hz])) (fun z hz => hl z (by simp [hz]))
    obtain ⟨x, b1, b2, b3, b4⟩ := scope_bwd en n m y (hs y (by simp)) (hl y (by simp))
    refine ⟨x :: xs, ?_, ?_, by rw [List.flatMap_cons, List.flatMap_cons, a3, b4]⟩
    · intro z hz
      rcases List.mem_cons.1 hz with rfl | hz
      · exact b1
      · exact a1 z hz
    · rw [readSubSubs, b2, a2]
      simp only [Res.ok_bind, b3]

theorem length_le_flatMap {α : Type} (f : α → List UInt8) (l : List α) (x : α) (h : x ∈ l) : (f x).length ≤ (l.flatMap f).length := by
  induction l with
  | nil => cases h
  | cons y l ih =>
    rw [List.flatMap_cons, List.length_append]
    rcases List.mem_cons.1 h with rfl | h
    · omega
    · have := ih h; omega

/-- A subsection is intact. -/
def SubOk (en : Endianness) (n m : Nat) (s : AttrSub) : Prop :=
  (0 : UInt8) ∉ s.vendor ∧ (subBytes en s).length < 2 ^ 32 ∧ ∀ x ∈ s.subs, ScopeOk n m x.scope

theorem length_subBytes (en : Endianness) (s : AttrSub) :
    (subBytes en s).length = 4 + (s.vendor ++ [0] ++ s.subs.flatMap (subSubBytes en)).length := by unfold subBytes; simp

theorem sub_fwd (en : Endianness) (n m : Nat) (s : Attr.Subsection) (h : RawSubOk en s) (xs : List Attr.Subsubsection)
    (hx : Elf.drain (Attr.subsubsectionNext en) (s.data.length + 1) s.data = .ok xs) (l : List AttrSubSub) (hl : readSubSubs n m xs = .ok l) :
    rawSub en s = subBytes en ⟨s.vendor, l⟩ ∧ SubOk en n m ⟨s.vendor, l⟩ := by
  obtain ⟨e1, o1⟩ := (subSubs_iff en _ _).1 hx
  obtain ⟨e2, o2⟩ := readSubSubs_fwd en n m xs o1 l hl
  have hd : s.data = l.flatMap (subSubBytes en) := by rw [e1, e2]
  obtain ⟨h1, h2, h3⟩ := h
  have hlen : s.length = 4 + (s.vendor ++ [0] ++ l.flatMap (subSubBytes en)).length := by
    rw [h2]; unfold rawSub; rw [hd]; simp
  have hr : rawSub en s = subBytes en ⟨s.vendor, l⟩ := by
    unfold rawSub subBytes
    simp only []
    rw [hlen, hd]
  exact ⟨hr, h1, by rw [← hr, ← h2]; exact h3, o2⟩

theorem sub_bwd (en : Endianness) (n m : Nat) (y : AttrSub) (h : SubOk en n m y) :
    ∃ s xs, RawSubOk en s ∧ Elf.drain (Attr.subsubsectionNext en) (s.data.length + 1) s.data = .ok xs ∧ readSubSubs n m xs = .ok y.subs ∧
      s.vendor = y.vendor ∧ rawSub en s = subBytes en y := by
  obtain ⟨vendor, subs⟩ := y
  obtain ⟨h1, h2, h3⟩ := h
  simp only at *
  have hl := length_subBytes en ⟨vendor, subs⟩
  simp only at hl
  obtain ⟨xs, a1, a2, a3⟩ := readSubSubs_bwd en n m subs h3 (by
    intro y hy
    have := length_le_flatMap (subSubBytes en) subs y hy
    simp only [List.length_append] at hl
    omega)
  let s : Attr.Subsection := ⟨(subBytes en ⟨vendor, subs⟩).length, vendor, subs.flatMap (subSubBytes en)⟩
  have hr : rawSub en s = subBytes en ⟨vendor, subs⟩ := by
    unfold rawSub
    show wr en 4 (subBytes en ⟨vendor, subs⟩).length ++ _ = _
    rw [hl]
    rfl
  exact ⟨s, xs, ⟨h1, by rw [hr], h2⟩, (subSubs_iff en _ _).2 ⟨a3.symm, a1⟩, a2, rfl, hr⟩

theorem readSubs_fwd (en : Endianness) (n m : Nat) (ss : List Attr.Subsection) (h : ∀ s ∈ ss, RawSubOk en s) (l : List AttrSub)
    (hl : readSubs en n m ss = .ok l) : ss.flatMap (rawSub en) = l.flatMap (subBytes en) ∧ ∀ y ∈ l, SubOk en n m y := by
  induction ss generalizing l with
  | nil =>
    rw [readSubs] at hl
    injection hl with hl
    subst hl
    exact ⟨rfl, by simp⟩
  | cons s ss ih =>
    rw [readSubs] at hl
    simp only [Res.bind_eq_ok, Res.ok.injEq] at hl
    obtain ⟨xs, h1, subs, h2, rest, h3, rfl⟩ := hl
    obtain ⟨e1, s1⟩ := sub_fwd en n m s (h s (by simp)) xs h1 subs h2
    obtain ⟨e2, s2⟩ := ih (fun y hy => h y (by simp [hy])) rest h3
    refine ⟨by rw [List.flatMap_cons, List.flatMap_cons, e1, e2], ?_⟩
    intro y hy
    rcases List.mem_cons.1 hy with rfl | hy
    · exact s1
    · exact s2 y hy

theorem readSubs_bwd (en : Endianness) (n m : Nat) (l : List AttrSub) (h : ∀ y ∈ l, SubOk en n m y) :
    ∃ ss, (∀ s ∈ ss, RawSubOk en s) ∧ readSubs en n m ss = .ok l ∧ ss.flatMap (rawSub en) = l.flatMap (subBytes en) := by
  induction l with
  | nil => exact ⟨[], by simp, rfl, rfl⟩
  | cons y l ih =>
    obtain ⟨ss, a1, a2, a3⟩ := ih (fun z hz => h z (by simp [hz]))
    obtain ⟨s, xs, b1, b2, b3, b4, b5⟩ := sub_bwd en n m y (h y (by simp))
    refine ⟨s :: ss, ?_, ?_, by rw [List.flatMap_cons, List.flatMap_cons, a3, b5]⟩
    · intro z hz
      rcases List.mem_cons.1 hz with rfl | hz
      · exact b1
      · exact a1 z hz
    · rw [readSubs, b2]
      simp only [Res.ok_bind]
      rw [b3, a2]
      simp only [Res.ok_bind, b4]

theorem readSubs_np (en : Endianness) (n m : Nat) (ss : List Attr.Subsection) : readSubs en n m ss ≠ .panic := by
  induction ss with
  | nil => simp [readSubs]
  | cons s ss ih =>
    rw [readSubs]
    exact Res.bind_no_panic (subSubs_np en _) fun xs hx => Res.bind_no_panic (readSubSubs_np en n m xs ((subSubs_iff en _ _).1 hx).2) fun _ _ =>
      Res.bind_no_panic ih fun _ _ => by simp

theorem attributes_iff (en : Endianness) (data : List UInt8) (n m : Nat) (s : Elf.Shdr) (x : SecData) :
    readAttributes en data n m s = .ok x ↔ ∃ d l, Spec.ElfF.DataOf data s d ∧ AttributesOf en n m d l ∧ x = .attributes l := by
  have hchar : ∀ d l, ((Attr.subsections (Attr.sectionNew d).1 (Attr.sectionNew d).2).bind fun d =>
      (Elf.drain (Attr.subsectionNext en) (d.length + 1) d).bind fun ss => readSubs en n m ss) = .ok l ↔ AttributesOf en n m d l := by
    intro d l
    have hbody : ∀ d, ((Elf.drain (Attr.subsectionNext en) (d.length + 1) d).bind fun ss => readSubs en n m ss) = .ok l ↔
        (∀ y ∈ l, SubOk en n m y) ∧ d = l.flatMap (subBytes en) := by
      intro d
      simp only [Res.bind_eq_ok, subs_iff]
      constructor
      · rintro ⟨ss, ⟨h1, h2⟩, h3⟩
        obtain ⟨a, b⟩ := readSubs_fwd en n m ss h2 l h3
        exact ⟨b, by rw [h1, a]⟩
      · rintro ⟨h1, h2⟩
        obtain ⟨ss, a, b, c⟩ := readSubs_bwd en n m l h1
        exact ⟨ss, ⟨by rw [h2, c], a⟩, b⟩
    unfold AttributesOf
    cases d with
    | nil =>
      simp only [Attr.sectionNew, Attr.subsections, ne_eq, not_true_eq_false, if_false, Res.ok_bind, hbody, reduceCtorEq, false_or, true_and]
      constructor
      · rintro ⟨h1, h2⟩
        refine ⟨h1, ?_⟩
        cases l with
        | nil => rfl
        | cons y l =>
          have := congrArg List.length h2
          rw [List.flatMap_cons, List.length_append, length_subBytes] at this
          simp at this
          omega
      · rintro ⟨h1, rfl⟩; exact ⟨h1, rfl⟩
    | cons v tl =>
      by_cases hv : v = 0x41
      · subst hv
        simp only [Attr.sectionNew, Attr.subsections, ne_eq, not_true_eq_false, if_false, Res.ok_bind, hbody, List.cons.injEq, true_and, reduceCtorEq, false_and, or_false]
        rfl
      · have he : Attr.subsections v tl = .err := by unfold Attr.subsections; rw [if_pos hv]
        simp only [Attr.sectionNew, he, Res.err_bind, reduceCtorEq, List.cons.injEq, hv, false_and, or_self, and_false]
  unfold readAttributes
  simp only [Res.bind_eq_ok, Res.ok.injEq, data_iff, ← hchar]
  constructor
  · rintro ⟨d, h1, d2, h2, ss, h3, l, h4, rfl⟩; exact ⟨d, l, h1, ⟨d2, h2, ss, h3, h4⟩, rfl⟩
  · rintro ⟨d, l, h1, ⟨d2, h2, ss, h3, h4⟩, rfl⟩; exact ⟨d, h1, d2, h2, ss, h3, l, h4, rfl⟩

theorem attributes_np (en : Endianness) (data : List UInt8) (n m : Nat) (s : Elf.Shdr) : readAttributes en data n m s ≠ .panic := by
  unfold readAttributes
  refine Res.bind_no_panic (data_np s data) fun d _ => Res.bind_no_panic ?_ fun d _ => Res.bind_no_panic (subs_np en d) fun ss _ =>
    Res.bind_no_panic (readSubs_np en n m ss) fun _ _ => by simp
  unfold Attr.subsections
  split <;> simp

end Obj.BuildR
