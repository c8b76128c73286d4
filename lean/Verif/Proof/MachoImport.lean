import Verif.Spec.MachoImport
import Verif.Proof.Pe
import Verif.Proof.MachoFixup
import Verif.Proof.Iter
import Verif.Drain
import Verif.Props.MachOIter
import Verif.Props.DyldInfo
import Verif.Props.MachoFixup
import Verif.Props.ElfTables

/-! # Lemmas for the imports and exports of Mach-O files -/

namespace Obj.MachoI
open Obj Obj.MachoR
open Obj.Spec.MachoI
open Obj.MachO (LoadCommands LoadCommandData)
open Obj.Spec.Pe (CStrAt)

/-! ## Bits -/

theorem and_mask (x k w : Nat) : x &&& ((2 ^ w - 1) <<< k) = (x / 2 ^ k % 2 ^ w) * 2 ^ k := by
  apply Nat.eq_of_testBit_eq
  intro i
  rw [Nat.testBit_and, Nat.testBit_shiftLeft, Nat.testBit_two_pow_sub_one, ← Nat.shiftLeft_eq, Nat.testBit_shiftLeft, Nat.testBit_mod_two_pow,
    ← Nat.shiftRight_eq_div_pow, Nat.testBit_shiftRight]
  by_cases h : k ≤ i
  · rw [show k + (i - k) = i by omega]
    simp [h, Bool.and_comm]
  · simp [h]

theorem and_e0 (x : Nat) : x &&& 0xe0 = x / 32 % 8 * 32 := and_mask x 5 3
theorem and_0e (x : Nat) : x &&& 0xe = x / 2 % 8 * 2 := and_mask x 1 3
theorem and_01 (x : Nat) : x &&& 1 = x % 2 := Nat.and_two_pow_sub_one_eq_mod x 1
theorem and_03 (x : Nat) : x &&& 3 = x % 4 := Nat.and_two_pow_sub_one_eq_mod x 2
theorem and_ff (x : Nat) : x &&& 0xff = x % 256 := Nat.and_two_pow_sub_one_eq_mod x 8
theorem and_04 (x : Nat) : x &&& 4 = x / 4 % 2 * 4 := and_mask x 2 1
theorem and_10 (x : Nat) : x &&& 0x10 = x / 16 % 2 * 16 := and_mask x 4 1
theorem and_40 (x : Nat) : x &&& 0x40 = x / 64 % 2 * 64 := and_mask x 6 1
theorem and_80 (x : Nat) : x &&& 0x80 = x / 128 % 2 * 128 := and_mask x 7 1
theorem and_100 (x : Nat) : x &&& 0x100 = x / 256 % 2 * 256 := and_mask x 8 1

theorem and_11 (x : Nat) : x &&& 0x11 = 0x11 ↔ x % 2 = 1 ∧ x / 16 % 2 = 1 := by
  have e : x &&& 0x11 = 0x11 ↔ (x &&& 1 = 1 ∧ x &&& 0x10 = 0x10) := by
    constructor
    · intro h
      refine ⟨?_, ?_⟩
      · have : x &&& 1 = (x &&& 0x11) &&& 1 := by rw [Nat.and_assoc]; rfl
        rw [this, h]; rfl
      · have : x &&& 0x10 = (x &&& 0x11) &&& 0x10 := by rw [Nat.and_assoc]; rfl
        rw [this, h]; rfl
    · rintro ⟨h1, h2⟩
      have : x &&& 0x11 = (x &&& 1) ||| (x &&& 0x10) := by rw [← Nat.and_or_distrib_left]; rfl
      rw [this, h1, h2]; rfl
  rw [e, and_01, and_10]; omega

theorem stab_iff (y : Nlist) : MachoV.isStab y = true ↔ y.typ / 32 % 8 ≠ 0 := by
  unfold MachoV.isStab
  rw [and_e0]
  simp
  omega

theorem undefined_iff (y : Nlist) : MachoV.isUndefined y = true ↔ Undefined y := by
  unfold MachoV.isUndefined Undefined MachoV.isStab MachoV.typ
  rw [and_e0, and_0e]
  simp [and_assoc]
  omega

theorem visible_iff (y : Nlist) : (MachoV.isStab y ∨ MachoV.isExt y = false ∨ MachoV.isPext y) ↔ ¬ Visible y := by
  unfold Visible
  rw [stab_iff]
  unfold MachoV.isExt MachoV.isPext
  simp only [decide_eq_true_eq, decide_eq_false_iff_not]
  rw [and_11, and_01]
  omega

/-! ## Commands -/

/-- The loop over a list. -/
def foldRes {α β : Type} (body : β → α → Res β) : β → List α → Res β
  | b, [] => .ok b
  | b, c :: cs => (body b c).bind fun b => foldRes body b cs

theorem for_eq {β : Type} {en : Endianness} (body : β → LoadCommandData → Res β) {cs : LoadCommands} {cmds : List LoadCommandData} {e : End}
    (h : Runs (LoadCommands.next en) cs cmds e) (b : β) :
    forCommands en body cs b = (foldRes body b cmds).bind fun b => match e with | .done => .ok b | .err => .err | .panic => .panic := by
  induction h generalizing b with
  | done h1 =>
    rw [forCommands]
    split
    · rfl
    · rename_i h2; rw [h1] at h2; simp at h2
    · rename_i h2; rw [h1] at h2; simp at h2
    · rename_i h2; rw [h1] at h2; simp at h2
  | err h1 =>
    rw [forCommands]
    split
    · rename_i h2; rw [h1] at h2; simp at h2
    · rename_i h2; rw [h1] at h2; simp at h2
    · rfl
    · rename_i h2; rw [h1] at h2; simp at h2
  | panic h1 =>
    rw [forCommands]
    split
    · rename_i h2; rw [h1] at h2; simp at h2
    · rename_i h2; rw [h1] at h2; simp at h2
    · rename_i h2; rw [h1] at h2; simp at h2
    · rfl
  | item h1 _ ih =>
    rw [forCommands]
    split
    · rename_i h2; rw [h1] at h2; simp at h2
    · rename_i c' cs' h2
      rw [h1] at h2
      simp only [Prod.mk.injEq, Res.ok.injEq, Option.some.injEq] at h2
      obtain ⟨rfl, rfl⟩ := h2
      unfold foldRes
      split
      · rename_i b' hb
        rw [hb, Res.ok_bind]; exact ih b'
      · rename_i hb; rw [hb]; rfl
      · rename_i hb; rw [hb]; rfl
    · rename_i h2; rw [h1] at h2; simp at h2
    · rename_i h2; rw [h1] at h2; simp at h2

theorem commands_exist (f : File) (data : List UInt8) (hl : data.length < 2 ^ 63) (cs : LoadCommands)
    (h : loadCommands f.cfg f.header data = .ok cs) :
    ∃ cmds e, Runs (LoadCommands.next f.cfg.en) cs cmds e ∧ e ≠ .panic ∧ cmds.length ≤ f.header.ncmds := by
  unfold loadCommands at h
  obtain ⟨d, hd, h⟩ := (Res.bind_eq_ok ..).1 h
  simp only [Res.ok.injEq] at h
  subst h
  have hlen : d.length ≤ data.length := by
    obtain ⟨rfl, -⟩ := readRef_readBytesAt_ok hd
    simp only [slice, List.length_take, List.length_drop]; omega
  have hs : hdrSize f.cfg ≤ 32 := by unfold hdrSize; split <;> omega
  obtain ⟨cl, rest, e, h1, h2, _, _, h5, _⟩ := Props.C27_load_commands f.cfg.en d f.header.ncmds (hdrSize f.cfg)
    (by simp only [Nat.reducePow] at *; omega)
  refine ⟨_, e, h1, h2, ?_⟩
  have : ∀ (cl : List (List UInt8)) (o : Nat), (Props.commandList f.cfg.en o cl).length = cl.length := by
    intro cl
    induction cl with
    | nil => intro o; rfl
    | cons c cl ih => intro o; simp [Props.commandList, ih]
  rw [this]; exact h5

theorem commands_unique {f : File} {data : List UInt8} {cmds cmds' : List LoadCommandData} {e e' : End} (h : Commands f data cmds e)
    (h' : Commands f data cmds' e') : cmds = cmds' ∧ e = e' := by
  obtain ⟨cs, h1, h2⟩ := h
  obtain ⟨cs', h1', h2'⟩ := h'
  rw [h1] at h1'
  cases h1'
  exact h2.unique h2'

/-! ## Reading -/

theorem readAt_eq (d : List UInt8) (off n : Nat) : Bytes.readAt d off n = if off + n ≤ d.length then .ok (slice d off n) else .err := by
  unfold Bytes.readAt
  rw [bytes_readBytesAt_eq]; rfl

theorem field_take (en : Endianness) (d : List UInt8) (k o w : Nat) (h : o + w ≤ k) (hk : k ≤ d.length) : field en (slice d 0 k) o w = field en d o w := by
  have := field_append en (d.take k) (d.drop k) o w (by rw [List.length_take]; omega)
  rw [List.take_append_drop] at this
  rw [this]; rfl

theorem string_iff (d : List UInt8) (off : Nat) (s : List UInt8) : Bytes.readStringAt d off = .ok s ↔ CStrAt d off s := Pe.readStringAt_iff d off s

theorem part_iff (data : List UInt8) (off size : Nat) (p : List UInt8) : ReadRef.readBytesAt data off size = .ok p ↔ PartIs data off size p := by
  rw [readRef_readBytesAt_eq]
  unfold PartIs
  by_cases h0 : size = 0
  · subst h0
    rw [if_pos (Or.inl rfl)]
    have : slice data off 0 = [] := by simp [slice]
    rw [this]
    constructor
    · intro h; simp only [Res.ok.injEq] at h; exact Or.inl ⟨rfl, h.symm⟩
    · rintro (⟨-, rfl⟩ | ⟨-, rfl⟩) <;> rfl
  · by_cases h1 : off + size ≤ data.length
    · rw [if_pos (Or.inr h1)]
      constructor
      · intro h; simp only [Res.ok.injEq] at h; exact Or.inr ⟨h1, h.symm⟩
      · rintro (⟨h, -⟩ | ⟨-, rfl⟩)
        · exact absurd h h0
        · rfl
    · rw [if_neg (by omega)]
      constructor
      · intro h; simp at h
      · rintro (⟨h, -⟩ | ⟨h, -⟩)
        · exact absurd h h0
        · exact absurd h h1

/-! ## Libraries -/

theorem isDylib_iff (c : LoadCommandData) :
    (c.cmd = 0xc ∨ c.cmd = 0x80000018 ∨ c.cmd = 0x8000001f ∨ c.cmd = 0x20 ∨ c.cmd = 0x80000023) ↔ IsDylib c := by
  unfold IsDylib; simp

theorem dylib_other {c : LoadCommandData} (h : ¬ IsDylib c) : dylib c = .ok none := by
  unfold dylib; rw [if_neg (by rwa [isDylib_iff])]

theorem dylib_short {c : LoadCommandData} (h : IsDylib c) (hl : ¬ 24 ≤ c.data.length) : dylib c = .err := by
  unfold dylib; rw [if_pos (by rwa [isDylib_iff]), readAt_eq, if_neg (by omega)]; rfl

theorem dylib_ok {c : LoadCommandData} (h : IsDylib c) (hl : 24 ≤ c.data.length) : dylib c = .ok (some (slice c.data 0 24)) := by
  unfold dylib; rw [if_pos (by rwa [isDylib_iff]), readAt_eq, if_pos (by omega)]; rfl

theorem useFlags_cases (en : Endianness) (c : LoadCommandData) (hl : 24 ≤ c.data.length) :
    (∃ u, dylibUseFlags en c (slice c.data 0 24) = .ok u ∧ UseFlags en c u) ∨
    (dylibUseFlags en c (slice c.data 0 24) = .err ∧ ¬ ∃ u, UseFlags en c u) := by
  unfold dylibUseFlags
  rw [field_take en c.data 24 8 4 (by omega) hl, field_take en c.data 24 12 4 (by omega) hl]
  by_cases hm : Marked en c
  · rw [if_neg (by unfold Marked at hm; simp [hm.1, hm.2]), readAt_eq]
    by_cases h : 24 + 4 ≤ c.data.length
    · rw [if_pos h]
      exact Or.inl ⟨_, rfl, .marked hm h⟩
    · rw [if_neg h]
      refine Or.inr ⟨rfl, ?_⟩
      rintro ⟨u, hu⟩
      cases hu with
      | unmarked h' => exact h' hm
      | marked _ h' => exact h h'
  · rw [if_pos (by unfold Marked at hm; omega)]
    exact Or.inl ⟨_, rfl, .unmarked hm⟩

theorem libraryOf_out (en : Endianness) (n : Nat) (c : LoadCommandData) (hl : 24 ≤ c.data.length) :
    LibOut en n c (libraryOf en n c (slice c.data 0 24)) := by
  unfold libraryOf lcString
  rw [field_take en c.data 24 8 4 (by omega) hl, field_take en c.data 24 16 4 (by omega) hl, field_take en c.data 24 20 4 (by omega) hl]
  cases hs : Bytes.readStringAt c.data (field en c.data 8 4) with
  | panic => exact absurd hs (Pe.readStringAt_no_panic _ _)
  | err =>
    rw [Res.err_bind]
    refine .bad (Or.inl ?_)
    rintro ⟨name, -, h⟩
    rw [(string_iff _ _ _).2 h] at hs; simp at hs
  | ok name =>
    rw [Res.ok_bind]
    rcases useFlags_cases en c hl with ⟨u, h1, h2⟩ | ⟨h1, h2⟩
    · rw [h1, Res.ok_bind]
      exact .item ⟨hl, (string_iff _ _ _).1 hs⟩ h2
    · rw [h1, Res.err_bind]
      exact .bad (Or.inr h2)

theorem cstr_unique {d : List UInt8} {o : Nat} {s s' : List UInt8} (h : CStrAt d o s) (h' : CStrAt d o s') : s = s' := by
  have h1 := (string_iff _ _ _).2 h
  rw [(string_iff _ _ _).2 h'] at h1
  simpa using h1.symm

theorem libOut_unique {en : Endianness} {n : Nat} {c : LoadCommandData} {r r' : Res Library} (h : LibOut en n c r) (h' : LibOut en n c r') : r = r' := by
  have hu : ∀ u u', UseFlags en c u → UseFlags en c u' → u = u' := by
    intro u u' h h'
    cases h with
    | unmarked h1 => cases h' with
      | unmarked => rfl
      | marked h2 => exact absurd h2 h1
    | marked h1 => cases h' with
      | unmarked h2 => exact absurd h1 h2
      | marked => rfl
  cases h with
  | bad h1 => cases h' with
    | bad => rfl
    | item h2 h3 => rcases h1 with h1 | h1
                    · exact absurd ⟨_, h2⟩ h1
                    · exact absurd ⟨_, h3⟩ h1
  | item h1 h2 => cases h' with
    | bad h3 => rcases h3 with h3 | h3
                · exact absurd ⟨_, h1⟩ h3
                · exact absurd ⟨_, h2⟩ h3
    | item h3 h4 => rw [cstr_unique h1.2 h3.2, hu _ _ h2 h4]

theorem libraries_exist (en : Endianness) (n : Nat) (cmds : List LoadCommandData) : ∃ xs, Libraries en n cmds xs := by
  induction cmds generalizing n with
  | nil => exact ⟨[], .nil⟩
  | cons c cs ih =>
    by_cases h : IsDylib c
    · obtain ⟨xs, hx⟩ := ih (n + 1)
      by_cases hl : 24 ≤ c.data.length
      · exact ⟨_, .dylib h (libraryOf_out en (n + 1) c hl) hx⟩
      · exact ⟨_, .dylib h (.bad (Or.inl fun ⟨_, h, _⟩ => hl h)) hx⟩
    · obtain ⟨xs, hx⟩ := ih n
      exact ⟨xs, .other h hx⟩

private theorem lib_skip {en : Endianness} {s : LibraryIt} {cs : LoadCommands} {c : LoadCommandData} (h : s.commands.next en = (.ok (some c), cs))
    (hd : ¬ IsDylib c) : s.next en = LibraryIt.next en { s with commands := cs } := by
  rw [LibraryIt.next]
  split
  · rename_i h2; rw [h] at h2; simp at h2
  · rename_i h2; rw [h] at h2; simp at h2
  · rename_i h2; rw [h] at h2; simp at h2
  · rename_i h2
    rw [h] at h2
    simp only [Prod.mk.injEq, Res.ok.injEq, Option.some.injEq] at h2
    obtain ⟨rfl, rfl⟩ := h2
    split
    · rfl
    · rename_i h3
      exact absurd (dylib_other hd) h3

private theorem lib_dylib {en : Endianness} {s : LibraryIt} {cs : LoadCommands} {c : LoadCommandData} (h : s.commands.next en = (.ok (some c), cs))
    (hd : IsDylib c) (hn : s.ordinal + 1 < U32) {r : Res Library} (hr : LibOut en (s.ordinal + 1) c r) :
    s.next en = (r.bind fun l => .ok (some l), ⟨cs, s.ordinal + 1⟩) := by
  rw [LibraryIt.next]
  split
  · rename_i h2; rw [h] at h2; simp at h2
  · rename_i h2; rw [h] at h2; simp at h2
  · rename_i h2; rw [h] at h2; simp at h2
  · rename_i h2
    rw [h] at h2
    simp only [Prod.mk.injEq, Res.ok.injEq, Option.some.injEq] at h2
    obtain ⟨rfl, rfl⟩ := h2
    by_cases hl : 24 ≤ c.data.length
    · rw [dylib_ok hd hl]
      simp only [if_neg (show ¬ U32 ≤ s.ordinal + 1 by omega)]
      rw [libOut_unique hr (libraryOf_out en (s.ordinal + 1) c hl)]
      cases libraryOf en (s.ordinal + 1) c (slice c.data 0 24) <;> rfl
    · rw [dylib_short hd hl]
      simp only [if_neg (show ¬ U32 ≤ s.ordinal + 1 by omega)]
      have : r = .err := by
        cases hr with
        | bad => rfl
        | item h1 => exact absurd h1.1 hl
      rw [this]; rfl

theorem libraries_drain {en : Endianness} {cs : LoadCommands} {cmds : List LoadCommandData} {e : End} (h : Runs (LoadCommands.next en) cs cmds e)
    (he : e ≠ .panic) (n : Nat) (hn : n + cmds.length < U32) {xs : List (Res Library)} (hx : Libraries en n cmds xs) :
    Drains (LibraryIt.next en) ⟨cs, n⟩ (xs ++ if e = .err then [.err] else []) := by
  induction h generalizing n xs with
  | panic => exact absurd rfl he
  | @done s s' h1 =>
    cases hx
    simp only [reduceCtorEq, if_false, List.append_nil]
    refine .done (s' := ⟨s', n⟩) ?_
    rw [LibraryIt.next]
    split
    · rename_i h2; simp only at h2; rw [h1] at h2; cases h2; rfl
    · rename_i h2; simp only at h2; rw [h1] at h2; simp at h2
    · rename_i h2; simp only at h2; rw [h1] at h2; simp at h2
    · rename_i h2; simp only at h2; rw [h1] at h2; simp at h2
  | @err s s' h1 =>
    cases hx
    simp only [if_true, List.nil_append]
    refine .err (s' := ⟨s', n⟩) ?_ (.done (s' := ⟨s', n⟩) ?_)
    · rw [LibraryIt.next]
      split
      · rename_i h2; simp only at h2; rw [h1] at h2; simp at h2
      · rename_i h2; simp only at h2; rw [h1] at h2; cases h2; rfl
      · rename_i h2; simp only at h2; rw [h1] at h2; simp at h2
      · rename_i h2; simp only at h2; rw [h1] at h2; simp at h2
    · have h3 := Props.C27_fused en _ _ h1
      rw [LibraryIt.next]
      split
      · rename_i h2; simp only at h2; rw [h3] at h2; cases h2; rfl
      · rename_i h2; simp only at h2; rw [h3] at h2; simp at h2
      · rename_i h2; simp only at h2; rw [h3] at h2; simp at h2
      · rename_i h2; simp only at h2; rw [h3] at h2; simp at h2
  | @item s s' c cs e h1 _ ih =>
    simp only [List.length_cons] at hn
    cases hx with
    | other hd hx =>
      exact Drains.congr (lib_skip (s := ⟨s, n⟩) h1 hd) (ih he n (by omega) hx)
    | @dylib _ _ _ r xs hd hr hx =>
      have h2 := lib_dylib (s := ⟨s, n⟩) h1 hd (by simp only; omega) hr
      have h3 := ih he (n + 1) (by omega) hx
      cases r with
      | ok l => exact .item h2 h3
      | err => exact .err h2 h3
      | panic => cases hr

theorem names_fold {en : Endianness} (cmds : List LoadCommandData) (ls : List (List UInt8)) (r : Res (List (List UInt8)))
    (hr : foldRes (fun ls c => (dylib c).bind fun r => match r with
        | some d => (lcString c (field en d 8 4)).bind fun name => .ok (ls ++ [name])
        | none => .ok ls) ls cmds = r) :
    r ≠ .panic ∧ ∀ L, r = .ok L ↔ ∃ names, L = ls ++ names ∧ Names en cmds names := by
  induction cmds generalizing ls r with
  | nil =>
    simp only [foldRes] at hr
    subst hr
    refine ⟨by simp, fun L => ?_⟩
    constructor
    · intro h; simp only [Res.ok.injEq] at h; exact ⟨[], by simp [h], .nil⟩
    · rintro ⟨names, rfl, h⟩
      cases h; simp
  | cons c cs ih =>
    simp only [foldRes] at hr
    by_cases hd : IsDylib c
    · by_cases hl : 24 ≤ c.data.length
      · rw [dylib_ok hd hl, Res.ok_bind] at hr
        simp only [lcString] at hr
        rw [field_take en c.data 24 8 4 (by omega) hl] at hr
        cases hs : Bytes.readStringAt c.data (field en c.data 8 4) with
        | panic => exact absurd hs (Pe.readStringAt_no_panic _ _)
        | err =>
          rw [hs, Res.err_bind, Res.err_bind] at hr
          subst hr
          refine ⟨by simp, fun L => ?_⟩
          simp only [reduceCtorEq, false_iff, not_exists, not_and]
          rintro names rfl h
          cases h with
          | other h => exact h hd
          | dylib _ h => rw [(string_iff _ _ _).2 h.2] at hs; simp at hs
        | ok name =>
          rw [hs, Res.ok_bind, Res.ok_bind] at hr
          obtain ⟨h1, h2⟩ := ih _ _ hr
          refine ⟨h1, fun L => ?_⟩
          rw [h2 L]
          constructor
          · rintro ⟨names, rfl, h⟩
            exact ⟨name :: names, by simp, .dylib hd ⟨hl, (string_iff _ _ _).1 hs⟩ h⟩
          · rintro ⟨names, rfl, h⟩
            cases h with
            | other h => exact absurd hd h
            | dylib _ h h' =>
              rw [cstr_unique h.2 ((string_iff _ _ _).1 hs)]
              exact ⟨_, by simp, h'⟩
      · rw [dylib_short hd hl, Res.err_bind, Res.err_bind] at hr
        subst hr
        refine ⟨by simp, fun L => ?_⟩
        simp only [reduceCtorEq, false_iff, not_exists, not_and]
        rintro names rfl h
        cases h with
        | other h => exact h hd
        | dylib _ h => exact hl h.1
    · rw [dylib_other hd, Res.ok_bind] at hr
      simp only [Res.ok_bind] at hr
      obtain ⟨h1, h2⟩ := ih _ _ hr
      refine ⟨h1, fun L => ?_⟩
      rw [h2 L]
      constructor
      · rintro ⟨names, rfl, h⟩
        exact ⟨names, rfl, .other hd h⟩
      · rintro ⟨names, rfl, h⟩
        cases h with
        | other _ h => exact ⟨_, rfl, h⟩
        | dylib h => exact absurd h hd

theorem libraries_iff {f : File} {data : List UInt8} {cmds : List LoadCommandData} {e : End} (hc : Commands f data cmds e) (he : e ≠ .panic) :
    libraries f data ≠ .panic ∧ ∀ L, libraries f data = .ok L ↔ e = .done ∧ ∃ names, L = [] :: names ∧ Names f.cfg.en cmds names := by
  obtain ⟨cs, h1, h2⟩ := hc
  unfold libraries
  rw [h1, Res.ok_bind, for_eq _ h2]
  obtain ⟨h3, h4⟩ := names_fold (en := f.cfg.en) cmds [[]] _ rfl
  generalize foldRes _ [[]] cmds = r at h3 h4 ⊢
  cases e with
  | panic => exact absurd rfl he
  | err =>
    cases r with
    | panic => exact absurd rfl h3
    | ok b => exact ⟨by simp [Res.ok_bind], fun L => by simp [Res.ok_bind]⟩
    | err => exact ⟨by simp, fun L => by simp⟩
  | done =>
    cases r with
    | panic => exact absurd rfl h3
    | err =>
      refine ⟨by simp, fun L => ?_⟩
      have := h4 L
      simp only [reduceCtorEq, false_iff] at this
      simp only [Res.err_bind, reduceCtorEq, true_and, false_iff]
      rintro ⟨names, rfl, h⟩
      exact this ⟨names, rfl, h⟩
    | ok b =>
      refine ⟨by simp [Res.ok_bind], fun L => ?_⟩
      have := h4 L
      simp only [Res.ok_bind, true_and]
      exact this

theorem library_iff (libs : List (List UInt8)) (d : Int) :
    library ([] :: libs) d ≠ .panic ∧ ∀ l, library ([] :: libs) d = .ok l ↔ LibraryNo libs d l := by
  unfold library
  by_cases h : d ≤ 0
  · rw [if_pos h]
    refine ⟨by simp, fun l => ?_⟩
    constructor
    · intro h'; simp only [Res.ok.injEq] at h'; subst h'; exact .special h
    · intro h'
      cases h' with
      | special => rfl
      | lib => omega
  · rw [if_neg h]
    obtain ⟨k, rfl⟩ : ∃ k : Nat, d = k + 1 := ⟨d.toNat - 1, by omega⟩
    rw [show ((k : Int) + 1).toNat = k + 1 by omega, List.getElem?_cons_succ]
    cases hk : libs[k]? with
    | none =>
      refine ⟨by simp, fun l => ?_⟩
      simp only [reduceCtorEq, false_iff]
      intro h'
      generalize hd : (k : Int) + 1 = d at h'
      cases h' with
      | special h' => omega
      | @lib k' _ h' =>
        have : k' = k := by omega
        subst this
        rw [hk] at h'; simp at h'
    | some l0 =>
      refine ⟨by simp, fun l => ?_⟩
      constructor
      · intro h'; simp only [Res.ok.injEq] at h'; subst h'; exact .lib hk
      · intro h'
        generalize hd : (k : Int) + 1 = d at h'
        cases h' with
        | special h' => omega
        | @lib k' _ h' =>
          have : k' = k := by omega
          subst this
          rw [hk] at h'
          simpa using h'

end Obj.MachoI
