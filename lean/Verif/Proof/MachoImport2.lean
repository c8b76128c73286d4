import Verif.Proof.MachoImport

/-! # The three sources of imports of Mach-O files -/

namespace Obj.MachoI
open Obj Obj.MachoR
open Obj.Spec.MachoI
open Obj.MachO (LoadCommands LoadCommandData)

theorem strGet (t : Elf.StrTable) (data : List UInt8) (o : Nat) : t.get data o ≠ .panic := by
  unfold Elf.StrTable.get Obj.stringTableGet
  cases t with
  | none => simp
  | some p =>
    simp only
    split
    · simp
    · unfold ReadRef.readBytesAtUntil
      split
      · dsimp only
        split <;> simp
      · simp

/-! ## Chained fixups -/

private theorem fixups_skip {libs : List (List UInt8)} {s s' : Fixup.ImportIt} {i : Fixup.Import} (h : s.next = (.ok (some i), s')) (hi : i.dylib = 0) :
    fixupsNext libs s = fixupsNext libs s' := by
  rw [fixupsNext]
  split
  · rename_i h2; rw [h] at h2; simp at h2
  · rename_i h2; rw [h] at h2; simp at h2
  · rename_i h2; rw [h] at h2; simp at h2
  · rename_i h2
    rw [h] at h2
    simp only [Prod.mk.injEq, Res.ok.injEq, Option.some.injEq] at h2
    obtain ⟨rfl, rfl⟩ := h2
    rw [if_pos hi]

private theorem fixups_item {libs : List (List UInt8)} {s s' : Fixup.ImportIt} {i : Fixup.Import} (h : s.next = (.ok (some i), s')) (hi : i.dylib ≠ 0) :
    fixupsNext libs s = ((library libs i.dylib).bind fun l => .ok (some ⟨l, i.name, i.weak, .bind i.dylib (if i.weak then 1 else 0)⟩), s') := by
  rw [fixupsNext]
  split
  · rename_i h2; rw [h] at h2; simp at h2
  · rename_i h2; rw [h] at h2; simp at h2
  · rename_i h2; rw [h] at h2; simp at h2
  · rename_i h2
    rw [h] at h2
    simp only [Prod.mk.injEq, Res.ok.injEq, Option.some.injEq] at h2
    obtain ⟨rfl, rfl⟩ := h2
    rw [if_neg hi]
    cases library libs i.dylib <;> rfl

private theorem fixups_done {libs : List (List UInt8)} {s s' : Fixup.ImportIt} (h : s.next = (.ok none, s')) : fixupsNext libs s = (.ok none, s') := by
  rw [fixupsNext]
  split
  · rename_i h2; rw [h] at h2; cases h2; rfl
  · rename_i h2; rw [h] at h2; simp at h2
  · rename_i h2; rw [h] at h2; simp at h2
  · rename_i h2; rw [h] at h2; simp at h2

private theorem fixups_err {libs : List (List UInt8)} {s s' : Fixup.ImportIt} (h : s.next = (.err, s')) : fixupsNext libs s = (.err, s') := by
  rw [fixupsNext]
  split
  · rename_i h2; rw [h] at h2; simp at h2
  · rename_i h2; rw [h] at h2; cases h2; rfl
  · rename_i h2; rw [h] at h2; simp at h2
  · rename_i h2; rw [h] at h2; simp at h2

theorem fixups_out (libs : List (List UInt8)) (i : Res Fixup.Import) (hi : i ≠ .panic) : ∃ r, FixupOut libs i r := by
  cases i with
  | panic => exact absurd rfl hi
  | err => exact ⟨_, .bad⟩
  | ok i =>
    by_cases h : i.dylib = 0
    · exact ⟨_, .self h⟩
    · by_cases h1 : ∃ l, LibraryNo libs i.dylib l
      · obtain ⟨l, hl⟩ := h1
        exact ⟨_, .item h hl⟩
      · exact ⟨_, .noLibrary h h1⟩

theorem outs_exist {α β : Type} {P : α → Option β → Prop} (ys : List α) (h : ∀ y ∈ ys, ∃ r, P y r) : ∃ xs, Outs P ys xs := by
  induction ys with
  | nil => exact ⟨[], .nil⟩
  | cons y ys ih =>
    obtain ⟨xs, hx⟩ := ih fun z hz => h z (by simp [hz])
    obtain ⟨r, hr⟩ := h y (by simp)
    cases r with
    | none => exact ⟨xs, .none hr hx⟩
    | some r => exact ⟨r :: xs, .some hr hx⟩

theorem fixups_drain {libs : List (List UInt8)} {s : Fixup.ImportIt} {ys : List (Res Fixup.Import)} (h : Drains Fixup.ImportIt.next s ys)
    {xs : List (Res Import)} (hx : Outs (FixupOut libs) ys xs) : Drains (fixupsNext ([] :: libs)) s xs := by
  induction h generalizing xs with
  | done h1 => cases hx; exact .done (fixups_done h1)
  | panic h1 =>
    cases hx with
    | none h => cases h
    | some h => cases h
  | err h1 _ ih =>
    cases hx with
    | none h => cases h
    | some h hx =>
      cases h
      exact .err (fixups_err h1) (ih hx)
  | @item s s' i ys h1 _ ih =>
    have hl := library_iff libs i.dylib
    cases hx with
    | none h hx =>
      cases h with
      | self h => exact Drains.congr (fixups_skip h1 h) (ih hx)
    | some h hx =>
      cases h with
      | noLibrary h h' =>
        refine .err ?_ (ih hx)
        rw [fixups_item h1 h]
        cases hr : library ([] :: libs) i.dylib with
        | ok l => exact absurd ⟨l, (hl.2 l).1 hr⟩ h'
        | err => rfl
        | panic => exact absurd hr hl.1
      | item h h' =>
        refine .item ?_ (ih hx)
        rw [fixups_item h1 h, (hl.2 _).2 h']; rfl

theorem fixups_good {en : Endianness} {f : Fixup.Fixups} {i : Nat} {ys : List (Res Fixup.Import)} (h : Spec.Fixup.Imports en f i ys) :
    ∀ y ∈ ys, y ≠ .panic := by
  induction h with
  | done => simp
  | item _ _ _ ih => intro y hy; rcases List.mem_cons.1 hy with rfl | hy
                     · simp
                     · exact ih y hy
  | bad => simp

/-! ## Symbols -/

theorem symbolLibrary_eq (desc : Nat) : symbolLibrary desc =
    if desc / 256 % 256 ∈ [0, 254, 255] then none else some (desc / 256 % 256) := by
  unfold symbolLibrary
  rw [show desc >>> 8 = desc / 256 from Nat.shiftRight_eq_div_pow desc 8]
  simp only [List.mem_cons, List.not_mem_nil, or_false]
  by_cases h : desc / 256 % 256 = 0 ∨ desc / 256 % 256 = 254 ∨ desc / 256 % 256 = 255
  · rw [if_pos h, if_pos (by omega)]
  · rw [if_neg h, if_neg (by omega)]

/-- The library of a symbol in the code. -/
private def symLib (twolevel : Bool) (libs : List (List UInt8)) (desc : Nat) : Res (List UInt8) :=
  if twolevel then
    match symbolLibrary desc with
    | some index => match libs[index]? with
      | some l => .ok l
      | none => .err
    | none => .ok []
  else .ok []

private theorem symLib_iff (T : Prop) (twolevel : Bool) (ht : twolevel = true ↔ T) (libs L : List (List UInt8)) (hL : T → L = [] :: libs) (desc : Nat) :
    symLib twolevel L desc ≠ .panic ∧ ∀ l, symLib twolevel L desc = .ok l ↔ SymbolLibrary T libs desc l := by
  unfold symLib
  by_cases hT : T
  · rw [if_pos (ht.2 hT), symbolLibrary_eq, hL hT]
    by_cases h : desc / 256 % 256 ∈ [0, 254, 255]
    · rw [if_pos h]
      refine ⟨by simp, fun l => ?_⟩
      constructor
      · intro h'; simp only [Res.ok.injEq] at h'; subst h'; exact .special hT h
      · intro h'
        cases h' with
        | flat h' => exact absurd hT h'
        | special => rfl
        | lib _ h1 h2 => simp at h; omega
    · rw [if_neg h]
      simp only [List.mem_cons, List.not_mem_nil, or_false] at h
      obtain ⟨k, hk⟩ : ∃ k, desc / 256 % 256 = k + 1 := ⟨desc / 256 % 256 - 1, by omega⟩
      have hk' : k < 253 := by omega
      simp only [hk, List.getElem?_cons_succ]
      cases hg : libs[k]? with
      | none =>
        refine ⟨by simp, fun l => ?_⟩
        simp only [reduceCtorEq, false_iff]
        intro h'
        cases h' with
        | flat h' => exact h' hT
        | special _ h' => simp at h'; omega
        | @lib k' _ _ h1 h2 h3 =>
          have : k' = k := by omega
          subst this
          rw [hg] at h3; simp at h3
      | some l0 =>
        refine ⟨by simp, fun l => ?_⟩
        constructor
        · intro h'; simp only [Res.ok.injEq] at h'; subst h'; exact .lib hT hk hk' hg
        · intro h'
          cases h' with
          | flat h' => exact absurd hT h'
          | special _ h' => simp at h'; omega
          | @lib k' _ _ h1 h2 h3 =>
            have : k' = k := by omega
            subst this
            rw [hg] at h3; simpa using h3
  · rw [if_neg (fun h => hT (ht.1 h))]
    refine ⟨by simp, fun l => ?_⟩
    constructor
    · intro h'; simp only [Res.ok.injEq] at h'; subst h'; exact .flat hT
    · intro h'
      cases h' with
      | flat => rfl
      | special h' => exact absurd h' hT
      | lib h' => exact absurd h' hT

private theorem symbolImport_eq (f : File) (data : List UInt8) (twolevel : Bool) (libs : List (List UInt8)) (y : Nlist) :
    symbolImport f data twolevel libs y = (f.symbols.strings.get data y.strx).bind fun name =>
      (symLib twolevel libs y.desc).bind fun l => .ok ⟨l, name, y.desc &&& 0x40 = 0x40, .symbol y.typ y.desc⟩ := rfl

private theorem symbolImport_out (f : File) (data : List UInt8) (T : Prop) (twolevel : Bool) (ht : twolevel = true ↔ T)
    (libs L : List (List UInt8)) (hL : T → L = [] :: libs) (y : Nlist) (hy : Undefined y) :
    SymbolOut f data T libs y (some (symbolImport f data twolevel L y)) := by
  rw [symbolImport_eq]
  obtain ⟨h1, h2⟩ := symLib_iff T twolevel ht libs L hL y.desc
  cases hs : f.symbols.strings.get data y.strx with
  | panic => exact absurd hs (strGet _ _ _)
  | err =>
    rw [Res.err_bind]
    exact .bad hy (Or.inl fun ⟨_, h⟩ => by rw [hs] at h; simp at h)
  | ok name =>
    rw [Res.ok_bind]
    cases hl : symLib twolevel L y.desc with
    | panic => exact absurd hl h1
    | err =>
      rw [Res.err_bind]
      refine .bad hy (Or.inr fun ⟨l, h⟩ => ?_)
      rw [(h2 l).2 h] at hl; simp at hl
    | ok l =>
      rw [Res.ok_bind]
      refine .item hy hs ((h2 l).1 hl) ?_
      rw [and_40]
      simp only [decide_eq_true_eq]; omega

theorem symbolOut_unique {f : File} {data : List UInt8} {T : Prop} {libs : List (List UInt8)} {y : Nlist} {r r' : Option (Res Import)}
    (h : SymbolOut f data T libs y r) (h' : SymbolOut f data T libs y r') : r = r' := by
  have hu : ∀ l l', SymbolLibrary T libs y.desc l → SymbolLibrary T libs y.desc l' → l = l' := by
    intro l l' h h'
    have hT : (decide (y.desc = y.desc)) = true := by simp
    by_cases hT : T
    · have := symLib_iff T true ⟨fun _ => hT, fun _ => rfl⟩ libs ([] :: libs) (fun _ => rfl) y.desc
      have h1 := (this.2 l).2 h
      rw [(this.2 l').2 h'] at h1
      simpa using h1.symm
    · cases h with
      | flat => cases h' with
        | flat => rfl
        | special h => exact absurd h hT
        | lib h => exact absurd h hT
      | special h => exact absurd h hT
      | lib h => exact absurd h hT
  cases h with
  | defined h1 =>
    cases h' with
    | defined => rfl
    | bad h2 => exact absurd h2 h1
    | item h2 => exact absurd h2 h1
  | bad h1 h2 =>
    cases h' with
    | defined h3 => exact absurd h1 h3
    | bad => rfl
    | item _ h3 h4 => rcases h2 with h2 | h2
                      · exact absurd ⟨_, h3⟩ h2
                      · exact absurd ⟨_, h4⟩ h2
  | @item name l weak h1 h2 h3 hw =>
    cases h' with
    | defined h3 => exact absurd h1 h3
    | bad _ h4 => rcases h4 with h4 | h4
                  · exact absurd ⟨_, h2⟩ h4
                  · exact absurd ⟨_, h3⟩ h4
    | @item name' l' weak' _ h4 h5 hw' =>
      rw [h2] at h4
      simp only [Res.ok.injEq] at h4
      subst h4
      rw [hu _ _ h3 h5]
      have : weak = weak' := by
        rw [Bool.eq_iff_iff, hw, hw']
      rw [this]

theorem symbols_out (f : File) (data : List UInt8) (T : Prop) (libs : List (List UInt8)) (y : Nlist) : ∃ r, SymbolOut f data T libs y r := by
  by_cases hy : Undefined y
  · by_cases hT : T
    · exact ⟨_, symbolImport_out f data T true ⟨fun _ => hT, fun _ => rfl⟩ libs ([] :: libs) (fun _ => rfl) y hy⟩
    · exact ⟨_, symbolImport_out f data T false (by simp [hT]) libs ([] :: libs) (fun _ => rfl) y hy⟩
  · exact ⟨_, .defined hy⟩

theorem symbols_drain (f : File) (data : List UInt8) (T : Prop) (twolevel : Bool) (ht : twolevel = true ↔ T) (libs L : List (List UInt8))
    (hL : T → L = [] :: libs) {ys : List Nlist} {xs : List (Res Import)} (hx : Outs (SymbolOut f data T libs) ys xs) :
    Drains (symbolsNext f data twolevel L) ys xs := by
  induction hx with
  | nil => exact .done (s' := []) rfl
  | @none y ys xs h _ ih =>
    refine Drains.congr ?_ ih
    have : ¬ Undefined y := by
      intro hy
      have := symbolOut_unique h (symbolImport_out f data T twolevel ht libs L hL y hy)
      simp at this
    rw [symbolsNext, if_neg (by rwa [undefined_iff])]
  | @some y r ys xs h _ ih =>
    have hy : Undefined y := by
      cases h with
      | bad h => exact h
      | item h => exact h
    have := symbolOut_unique h (symbolImport_out f data T twolevel ht libs L hL y hy)
    simp only [Option.some.injEq] at this
    have hn : symbolsNext f data twolevel L (y :: ys) = (r.bind fun i => .ok (some i), ys) := by
      rw [symbolsNext, if_pos ((undefined_iff y).2 hy), this]
      cases symbolImport f data twolevel L y <;> rfl
    cases r with
    | ok i => exact .item hn ih
    | err => exact .err hn ih
    | panic => cases h

/-! ## Bind operations -/

private theorem next_nil {libs : List (List UInt8)} {s : DyldIt} (h : s.streams = []) : s.next libs = (.ok none, s) := by
  rw [DyldIt.next]
  split
  · rfl
  · rename_i h2; rw [h] at h2; simp at h2

private theorem next_none {libs : List (List UInt8)} {s : DyldIt} {d d' : List UInt8} {ds : List (List UInt8)} (h : s.streams = d :: ds)
    (hb : Dyld.bindOpNext d = (.ok none, d')) : s.next libs = s.nextIndex.next libs := by
  rw [DyldIt.next]
  split
  · rename_i h2; rw [h] at h2; simp at h2
  · rename_i d1 ds1 h2
    rw [h] at h2
    simp only [List.cons.injEq] at h2
    obtain ⟨rfl, rfl⟩ := h2
    split
    · rfl
    · rename_i h3; rw [hb] at h3; simp at h3
    · rename_i h3; rw [hb] at h3; simp at h3
    · rename_i h3; rw [hb] at h3; simp at h3

private theorem next_err {libs : List (List UInt8)} {s : DyldIt} {d d' : List UInt8} {ds : List (List UInt8)} (h : s.streams = d :: ds)
    (hb : Dyld.bindOpNext d = (.err, d')) : s.next libs = (.err, { s with streams := d' :: ds }) := by
  rw [DyldIt.next]
  split
  · rename_i h2; rw [h] at h2; simp at h2
  · rename_i d1 ds1 h2
    rw [h] at h2
    simp only [List.cons.injEq] at h2
    obtain ⟨rfl, rfl⟩ := h2
    split
    · rename_i h3; rw [hb] at h3; simp at h3
    · rename_i h3; rw [hb] at h3; cases h3; rfl
    · rename_i h3; rw [hb] at h3; simp at h3
    · rename_i h3; rw [hb] at h3; simp at h3

/-- What `next` does at a bind, when the operation has been read. -/
private def bindStep (libs : List (List UInt8)) (s : DyldIt) : Res (Option Import) × DyldIt :=
  if s.unbound then
    match s.bound libs with
    | .ok none => DyldIt.next libs { s with unbound := false }
    | .ok (some i) => (.ok (some i), { s with unbound := false })
    | .err => (.err, { s with unbound := false })
    | .panic => (.panic, { s with unbound := false })
  else DyldIt.next libs s

/-- What `next` does for an operation. -/
private def opStep (libs : List (List UInt8)) (s : DyldIt) : Dyld.BindOp → Res (Option Import) × DyldIt
  | .done => if s.isLazy then DyldIt.next libs { s with dylib := none, symbol := none } else DyldIt.next libs s.nextIndex
  | .setDylibOrdinal ordinal => if ordinal < 2 ^ 31 then DyldIt.next libs { s with dylib := some ordinal } else (.err, s)
  | .setDylibSpecial ordinal => DyldIt.next libs { s with dylib := some ordinal }
  | .setSymbol flags name => DyldIt.next libs { s with symbol := some (flags, name), unbound := true }
  | .doBindTimesSkipping count _ => if count = 0 then DyldIt.next libs s else bindStep libs s
  | .doBind | .doBindAddAddr _ | .doBindAddAddrScaled _ => bindStep libs s
  | .setType _ | .setAddend _ | .setSegmentAndOffset _ _ | .addAddr _ => DyldIt.next libs s

private theorem next_op {libs : List (List UInt8)} {s : DyldIt} {d d' : List UInt8} {ds : List (List UInt8)} {o : Nat} {op : Dyld.BindOp}
    (h : s.streams = d :: ds) (hb : Dyld.bindOpNext d = (.ok (some (o, op)), d')) :
    s.next libs = opStep libs { s with streams := d' :: ds } op := by
  rw [DyldIt.next]
  split
  · rename_i h2; rw [h] at h2; simp at h2
  · rename_i d1 ds1 h2
    rw [h] at h2
    simp only [List.cons.injEq] at h2
    obtain ⟨rfl, rfl⟩ := h2
    split
    · rename_i h3; rw [hb] at h3; simp at h3
    · rename_i h3; rw [hb] at h3; simp at h3
    · rename_i h3; rw [hb] at h3; simp at h3
    · rename_i h3
      rw [hb] at h3
      simp only [Prod.mk.injEq, Res.ok.injEq, Option.some.injEq] at h3
      obtain ⟨⟨rfl, rfl⟩, rfl⟩ := h3
      cases op <;> rfl

theorem bindOut_exist (libs : List (List UInt8)) (st : BState) : ∃ r, BindOut libs st r := by
  cases hs : st.symbol with
  | none => exact ⟨_, .incomplete (Or.inr hs)⟩
  | some sym =>
    cases hd : st.dylib with
    | none => exact ⟨_, .incomplete (Or.inl hd)⟩
    | some d =>
      by_cases h0 : d = 0
      · subst h0; exact ⟨_, .self hs hd⟩
      · by_cases h1 : ∃ l, LibraryNo libs d l
        · obtain ⟨l, hl⟩ := h1
          exact ⟨_, .item (weak := decide (sym.1 % 2 = 1)) hs hd h0 hl (by simp)⟩
        · exact ⟨_, .noLibrary hs hd h0 h1⟩

theorem stream_exist (libs : List (List UInt8)) (isLazy : Prop) (st : BState) (ops : List Dyld.BindOp) (e : End) (he : e ≠ .panic) :
    ∃ xs b, Stream libs isLazy st ops e xs b := by
  induction ops generalizing st with
  | nil =>
    cases e with
    | panic => exact absurd rfl he
    | done => exact ⟨_, _, .stop⟩
    | err => exact ⟨_, _, .bad⟩
  | cons op ops ih =>
    by_cases h0 : op = .done
    · subst h0
      by_cases hl : isLazy
      · obtain ⟨xs, b, h⟩ := ih { st with dylib := none, symbol := none }
        exact ⟨xs, b, .lazyDone hl h⟩
      · exact ⟨_, _, .done hl⟩
    · by_cases hb : Binds op
      · cases hf : st.fresh with
        | false =>
          obtain ⟨xs, b, h⟩ := ih st
          exact ⟨xs, b, .again hb hf h⟩
        | true =>
          obtain ⟨xs, b, h⟩ := ih { st with fresh := false }
          obtain ⟨r, hr⟩ := bindOut_exist libs st
          exact ⟨_, b, .first hb hf hr h⟩
      · by_cases hn : ∀ n, op = .setDylibOrdinal n → n < 2 ^ 31
        · obtain ⟨xs, b, h⟩ := ih (st.after op)
          exact ⟨xs, b, .set h0 hb hn h⟩
        · obtain ⟨n, h1⟩ := Classical.not_forall.1 hn
          obtain ⟨rfl, h2⟩ := Classical.not_imp.1 h1
          obtain ⟨xs, b, h⟩ := ih st
          exact ⟨_, b, .ordinal (by omega) h⟩

/-- The result of `next` at a bind, as it is in the code. -/
private def outRes : Option (Res Import) → Res (Option Import)
  | none => .ok none
  | some (.ok i) => .ok (some i)
  | some .err => .err
  | some .panic => .panic

private theorem bound_out {libs : List (List UInt8)} {s : DyldIt} {st : BState} (h1 : s.dylib = st.dylib) (h2 : s.symbol = st.symbol)
    {r : Option (Res Import)} (h : BindOut libs st r) :
    s.bound ([] :: libs) = outRes r := by
  unfold DyldIt.bound
  rw [h1, h2]
  cases h with
  | incomplete h =>
    rcases h with h | h
    · cases st.symbol with
      | none => rfl
      | some sym => rw [h]; rfl
    · rw [h]; rfl
  | self h h' => rw [h, h']; rfl
  | @noLibrary d _ h h' h0 hn =>
    rw [h, h']
    simp only [if_pos h0]
    have := library_iff libs d
    cases hr : library ([] :: libs) d with
    | ok l => exact absurd ⟨l, (this.2 l).1 hr⟩ hn
    | err => rfl
    | panic => exact absurd hr this.1
  | @item d flags name l weak h h' h0 hl hw =>
    rw [h, h']
    simp only [if_pos h0]
    rw [((library_iff libs d).2 l).2 hl, Res.ok_bind, and_01]
    have : weak = decide (flags % 2 = 1) := by rw [Bool.eq_iff_iff, hw]; simp
    rw [this]; rfl

theorem stream_drain {libs : List (List UInt8)} {isLazy : Prop} {st : BState} {ops : List Dyld.BindOp} {e : End} {xs : List (Res Import)} {b : Bool}
    (h : Stream libs isLazy st ops e xs b) {d : List UInt8} {os : List (Nat × Dyld.BindOp)} (hr : Runs Dyld.bindOpNext d os e)
    (ho : os.map (·.2) = ops) {s : DyldIt} {ds : List (List UInt8)} (hs : s.streams = d :: ds) (h1 : s.dylib = st.dylib) (h2 : s.symbol = st.symbol)
    (h3 : s.unbound = st.fresh) (h4 : s.isLazy = true ↔ isLazy) {ys : List (Res Import)}
    (hk : ∀ t : DyldIt, t.streams.tail = ds → t.index = s.index → t.unbound = b → Drains (DyldIt.next ([] :: libs)) t.nextIndex ys) :
    Drains (DyldIt.next ([] :: libs)) s (xs ++ ys) := by
  induction h generalizing d os s with
  | stop =>
    cases os with
    | cons => simp at ho
    | nil =>
      cases hr with
      | done hb => exact Drains.congr (next_none hs hb) (hk s (by rw [hs]; rfl) rfl h3)
  | bad =>
    cases os with
    | cons => simp at ho
    | nil =>
      cases hr with
      | @err _ d' hb =>
        refine .err (next_err hs hb) ?_
        have := Props.C25_bind_ops.2.2.1 _ _ hb
        exact Drains.congr (next_none (s := { s with streams := d' :: ds }) rfl this) (hk { s with streams := d' :: ds } rfl rfl h3)
  | done hl =>
    cases os with
    | nil => simp at ho
    | cons o os =>
      simp only [List.map_cons, List.cons.injEq] at ho
      obtain ⟨o1, o2⟩ := o
      simp only at ho
      obtain ⟨rfl, -⟩ := ho
      cases hr with
      | @item _ d' _ _ _ hb hr =>
        have hn := next_op (libs := [] :: libs) hs hb
        simp only [opStep] at hn
        rw [if_neg (fun h => hl (h4.1 h))] at hn
        exact Drains.congr hn <| hk { s with streams := d' :: ds } rfl rfl h3
  | lazyDone hl _ ih =>
    cases os with
    | nil => simp at ho
    | cons o os =>
      simp only [List.map_cons, List.cons.injEq] at ho
      obtain ⟨o1, o2⟩ := o
      simp only at ho
      obtain ⟨rfl, ho⟩ := ho
      cases hr with
      | @item _ d' _ _ _ hb hr =>
        have hn := next_op (libs := [] :: libs) hs hb
        simp only [opStep] at hn
        rw [if_pos (h4.2 hl)] at hn
        exact Drains.congr hn <| ih hr ho rfl rfl rfl h3 h4 hk
  | ordinal hn _ ih =>
    cases os with
    | nil => simp at ho
    | cons o os =>
      simp only [List.map_cons, List.cons.injEq] at ho
      obtain ⟨o1, o2⟩ := o
      simp only at ho
      obtain ⟨rfl, ho⟩ := ho
      cases hr with
      | @item _ d' _ _ _ hb hr =>
        refine .err (s' := { s with streams := d' :: ds }) ?_ (ih hr ho rfl h1 h2 h3 h4 hk)
        rw [next_op hs hb]
        simp only [opStep]
        rw [if_neg (by omega)]
  | @set st op _ _ _ _ h0 hb0 hn _ ih =>
    cases os with
    | nil => simp at ho
    | cons o os =>
      simp only [List.map_cons, List.cons.injEq] at ho
      obtain ⟨o1, o2⟩ := o
      simp only at ho
      obtain ⟨rfl, ho⟩ := ho
      cases hr with
      | @item _ d' _ _ _ hb hr =>
        have hx := next_op (libs := [] :: libs) hs hb
        cases o2 with
        | done => exact absurd rfl h0
        | setDylibOrdinal n =>
          simp only [opStep] at hx
          rw [if_pos (hn n rfl)] at hx
          exact Drains.congr hx (ih hr ho rfl rfl h2 h3 h4 hk)
        | setDylibSpecial n => simp only [opStep] at hx; exact Drains.congr hx (ih hr ho rfl rfl h2 h3 h4 hk)
        | setSymbol flags name => simp only [opStep] at hx; exact Drains.congr hx (ih hr ho rfl h1 rfl rfl h4 hk)
        | setType => simp only [opStep] at hx; exact Drains.congr hx (ih hr ho rfl h1 h2 h3 h4 hk)
        | setAddend => simp only [opStep] at hx; exact Drains.congr hx (ih hr ho rfl h1 h2 h3 h4 hk)
        | setSegmentAndOffset => simp only [opStep] at hx; exact Drains.congr hx (ih hr ho rfl h1 h2 h3 h4 hk)
        | addAddr => simp only [opStep] at hx; exact Drains.congr hx (ih hr ho rfl h1 h2 h3 h4 hk)
        | doBind => exact absurd trivial hb0
        | doBindAddAddr => exact absurd trivial hb0
        | doBindAddAddrScaled => exact absurd trivial hb0
        | doBindTimesSkipping n k =>
          have : n = 0 := Classical.byContradiction fun h => hb0 h
          subst this
          simp only [opStep, if_true] at hx
          exact Drains.congr hx (ih hr ho rfl h1 h2 h3 h4 hk)
  | @again st op _ _ _ _ hb0 hf _ ih =>
    cases os with
    | nil => simp at ho
    | cons o os =>
      simp only [List.map_cons, List.cons.injEq] at ho
      obtain ⟨o1, o2⟩ := o
      simp only at ho
      obtain ⟨rfl, ho⟩ := ho
      cases hr with
      | @item _ d' _ _ _ hb hr =>
        have hst : s.next ([] :: libs) = bindStep ([] :: libs) { s with streams := d' :: ds } := by
          rw [next_op hs hb]
          cases o2 <;> first | rfl | exact absurd hb0 id | skip
          rename_i n k
          exact if_neg hb0
        unfold bindStep at hst
        rw [if_neg (by simp only; rw [h3, hf]; simp)] at hst
        exact Drains.congr hst (ih hr ho rfl h1 h2 h3 h4 hk)
  | @first st op _ _ r _ _ hb0 hf hout _ ih =>
    cases os with
    | nil => simp at ho
    | cons o os =>
      simp only [List.map_cons, List.cons.injEq] at ho
      obtain ⟨o1, o2⟩ := o
      simp only at ho
      obtain ⟨rfl, ho⟩ := ho
      cases hr with
      | @item _ d' _ _ _ hb hr =>
        have hst : s.next ([] :: libs) = bindStep ([] :: libs) { s with streams := d' :: ds } := by
          rw [next_op hs hb]
          cases o2 <;> first | rfl | exact absurd hb0 id | skip
          rename_i n k
          exact if_neg hb0
        have hrest := ih hr ho (s := { s with streams := d' :: ds, unbound := false }) rfl h1 h2 rfl h4 hk
        have hbo := bound_out (s := { s with streams := d' :: ds }) h1 h2 hout
        unfold bindStep at hst
        rw [if_pos (by simp only; rw [h3, hf])] at hst
        rw [hbo] at hst
        cases r with
        | none => exact Drains.congr hst hrest
        | some r =>
          cases r with
          | ok i => exact .item hst hrest
          | err => exact .err hst hrest
          | panic => cases hout

theorem streams_exist (libs : List (List UInt8)) (s0 s1 s2 : List UInt8) : ∃ xs, Streams libs s0 s1 s2 xs := by
  obtain ⟨o0, e0, r0, -, p0⟩ := Props.C25_bind_ops.2.2.2 s0
  obtain ⟨o1, e1, r1, -, p1⟩ := Props.C25_bind_ops.2.2.2 s1
  obtain ⟨o2, e2, r2, -, p2⟩ := Props.C25_bind_ops.2.2.2 s2
  obtain ⟨x0, b0, t0⟩ := stream_exist libs False ⟨none, none, false⟩ (o0.map (·.2)) e0 p0
  obtain ⟨x1, b1, t1⟩ := stream_exist libs False ⟨some (-3), none, b0⟩ (o1.map (·.2)) e1 p1
  obtain ⟨x2, b2, t2⟩ := stream_exist libs True ⟨none, none, b1⟩ (o2.map (·.2)) e2 p2
  exact ⟨_, _, _, _, _, _, _, _, _, _, _, _, _, r0, r1, r2, t0, t1, t2, rfl⟩

theorem streams_drain {libs : List (List UInt8)} {s0 s1 s2 : List UInt8} {xs : List (Res Import)} (h : Streams libs s0 s1 s2 xs) :
    Drains (DyldIt.next ([] :: libs)) ⟨[s0, s1, s2], 0, false, none, none, false⟩ xs := by
  obtain ⟨o0, e0, o1, e1, o2, e2, x0, x1, x2, b0, b1, b2, r0, r1, r2, t0, t1, t2, rfl⟩ := h
  rw [List.append_assoc]
  refine stream_drain t0 r0 rfl (ds := [s1, s2]) rfl rfl rfl rfl (by simp) ?_
  intro t ht hi hu
  have hi0 : t.index = 0 := hi
  have ha : t.nextIndex.dylib = some (-3) := by simp [DyldIt.nextIndex, hi0]
  have hb : t.nextIndex.isLazy = true ↔ False := by simp [DyldIt.nextIndex, hi0]
  refine stream_drain t1 r1 rfl (s := t.nextIndex) (ds := [s2]) ht ha rfl hu hb ?_
  intro t' ht' hi' hu'
  have hi1 : t'.index = 1 := by rw [hi']; simp [DyldIt.nextIndex, hi0]
  have e : x2 = x2 ++ [] := by simp
  rw [e]
  have ha : t'.nextIndex.dylib = none := by simp [DyldIt.nextIndex, hi1]
  have hb : t'.nextIndex.isLazy = true ↔ True := by simp [DyldIt.nextIndex, hi1]
  refine stream_drain t2 r2 rfl (s := t'.nextIndex) (ds := []) ht' ha rfl hu' hb ?_
  intro t'' ht'' _ _
  exact .done (next_nil ht'')

end Obj.MachoI
