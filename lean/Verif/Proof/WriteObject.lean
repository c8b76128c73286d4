import Verif.Spec.WriteObject
import Verif.Proof.Bytes

/-!
# Proofs about the object builder: sections, and the decomposition of every call into small effects
-/

namespace Obj.W
open Obj.W.Spec

theorem bind_ok_iff {α β : Type} {x : Res α} {f : α → Res β} {b : β} :
    x.bind f = .ok b ↔ ∃ a, x = .ok a ∧ f a = .ok b := by
  cases x <;> simp

theorem powTwo_iff (a : Nat) : (a ≠ 0 ∧ a &&& (a - 1) = 0) ↔ PowTwo a :=
  Nat.ne_zero_and_sub_one_eq_zero_iff_isPowerOfTwo

theorem Spec.PowTwo.pos {a : Nat} (h : PowTwo a) : 0 < a := by
  obtain ⟨k, rfl⟩ := h; exact Nat.two_pow_pos k

/-- The rounding of `append_data` and `append_bss`. -/
theorem round_eq {a n : Nat} (h : PowTwo a) :
    (if n &&& (a - 1) ≠ 0 then n + (a - (n &&& (a - 1))) else n) = Obj.Spec.roundUp n a := by
  obtain ⟨k, rfl⟩ := h
  have hp := Nat.two_pow_pos k
  rw [Nat.and_two_pow_sub_one_eq_mod]
  generalize 2 ^ k = p at *
  unfold Obj.Spec.roundUp
  have hdm := Nat.div_add_mod n p
  have hml := Nat.mod_lt n hp
  by_cases hz : n % p = 0
  · rw [if_neg (by simp [hz])]
    obtain ⟨q, hq⟩ := Nat.dvd_of_mod_eq_zero hz
    subst hq
    rw [show p * q + (p - 1) = (p - 1) + p * q by omega, Nat.add_mul_div_left _ _ hp,
      Nat.div_eq_of_lt (by omega), Nat.zero_add, Nat.mul_comm]
  · rw [if_pos hz]
    have e : n + (p - 1) = (n % p - 1) + p * (n / p + 1) := by rw [Nat.mul_add]; omega
    rw [e, Nat.add_mul_div_left _ _ hp, Nat.div_eq_of_lt (by omega), Nat.zero_add, Nat.mul_comm,
      Nat.mul_add]
    omega

theorem le_roundUp {a n : Nat} (h : 0 < a) : n ≤ Obj.Spec.roundUp n a := (roundUp_spec n a h).2.1

/-- `append_data` succeeds exactly on an initialized section with a power of two, and then: -/
theorem appendData_iff (s : Section) (d : List UInt8) (a off : Nat) (s' : Section) :
    s.appendData d a = .ok (off, s') ↔
      s.kind.isBss = false ∧ PowTwo a ∧ off = Obj.Spec.roundUp s.data.length a ∧
        off + d.length < 9223372036854775808 ∧
        s' = { s with data := s.data ++ List.replicate (off - s.data.length) 0 ++ d,
                      size := off + d.length, align := max s.align a } := by
  unfold Section.appendData
  by_cases h1 : s.kind.isBss = true
  · simp [h1]
  rw [if_neg h1]
  have h1' : s.kind.isBss = false := by simpa using h1
  by_cases h2 : a = 0
  · rw [if_pos h2]; constructor
    · simp
    · rintro ⟨_, hp, _⟩; have := hp.pos; omega
  rw [if_neg h2]
  by_cases h3 : a &&& (a - 1) ≠ 0
  · rw [if_pos h3]; constructor
    · simp
    · rintro ⟨_, hp, _⟩; exact absurd ((powTwo_iff a).2 hp).2 h3
  rw [if_neg h3]
  have hp : PowTwo a := (powTwo_iff a).1 ⟨h2, by simpa using h3⟩
  simp only [round_eq hp]
  have hle := le_roundUp (n := s.data.length) hp.pos
  have hlen : (s.data ++ List.replicate (Obj.Spec.roundUp s.data.length a - s.data.length) 0 ++ d).length =
      Obj.Spec.roundUp s.data.length a + d.length := by
    simp only [List.length_append, List.length_replicate]; omega
  have hal : (if s.align < a then a else s.align) = max s.align a := by
    rw [Nat.max_def]; split <;> split <;> omega
  rw [hlen, hal]
  by_cases h4 : Obj.Spec.roundUp s.data.length a + d.length < 9223372036854775808
  · rw [if_pos h4]
    constructor
    · intro h
      simp only [Res.ok.injEq, Prod.mk.injEq] at h
      obtain ⟨rfl, rfl⟩ := h
      exact ⟨h1', hp, rfl, h4, rfl⟩
    · rintro ⟨_, _, rfl, _, rfl⟩; rfl
  · rw [if_neg h4]
    constructor
    · simp
    · rintro ⟨_, _, rfl, h5, _⟩; exact absurd h5 h4

theorem appendBss_iff (s : Section) (n a off : Nat) (s' : Section) :
    s.appendBss n a = .ok (off, s') ↔
      s.kind.isBss = true ∧ PowTwo a ∧ off = Obj.Spec.roundUp s.size a ∧ off + n < U64 ∧
        s' = { s with size := off + n, align := max s.align a } := by
  unfold Section.appendBss
  by_cases h1 : s.kind.isBss = true
  · rw [if_neg (by simp [h1])]
    by_cases h2 : a = 0
    · rw [if_pos h2]; constructor
      · simp
      · rintro ⟨_, hp, _⟩; have := hp.pos; omega
    rw [if_neg h2]
    by_cases h3 : a &&& (a - 1) ≠ 0
    · rw [if_pos h3]; constructor
      · simp
      · rintro ⟨_, hp, _⟩; exact absurd ((powTwo_iff a).2 hp).2 h3
    rw [if_neg h3]
    have hp : PowTwo a := (powTwo_iff a).1 ⟨h2, by simpa using h3⟩
    simp only [round_eq hp]
    have hal : (if s.align < a then a else s.align) = max s.align a := by
      rw [Nat.max_def]; split <;> split <;> omega
    rw [hal]
    by_cases h4 : Obj.Spec.roundUp s.size a + n < U64
    · rw [if_pos h4]
      constructor
      · intro h
        simp only [Res.ok.injEq, Prod.mk.injEq] at h
        obtain ⟨rfl, rfl⟩ := h
        exact ⟨h1, hp, rfl, h4, rfl⟩
      · rintro ⟨_, _, rfl, _, rfl⟩; rfl
    · rw [if_neg h4]
      constructor
      · simp
      · rintro ⟨_, _, rfl, h5, _⟩; exact absurd h5 h4
  · rw [if_pos (by simpa using h1)]
    constructor
    · simp
    · rintro ⟨h, _⟩; exact absurd h h1

theorem setData_iff (s : Section) (d : List UInt8) (a : Nat) (s' : Section) :
    s.setData d a = .ok s' ↔
      s.kind.isBss = false ∧ PowTwo a ∧ s.data = [] ∧
        s' = { s with data := d, size := d.length, align := a } := by
  unfold Section.setData
  by_cases h1 : s.kind.isBss = true
  · simp [h1]
  rw [if_neg h1]
  have h1' : s.kind.isBss = false := by simpa using h1
  by_cases h2 : a = 0
  · rw [if_pos h2]; constructor
    · simp
    · rintro ⟨_, hp, _⟩; have := hp.pos; omega
  rw [if_neg h2]
  by_cases h3 : a &&& (a - 1) ≠ 0
  · rw [if_pos h3]; constructor
    · simp
    · rintro ⟨_, hp, _⟩; exact absurd ((powTwo_iff a).2 hp).2 h3
  rw [if_neg h3]
  have hp : PowTwo a := (powTwo_iff a).1 ⟨h2, by simpa using h3⟩
  by_cases h4 : s.data = []
  · rw [if_neg (by simpa using h4)]
    constructor
    · intro h
      simp only [Res.ok.injEq] at h
      exact ⟨h1', hp, h4, h.symm⟩
    · rintro ⟨_, _, _, rfl⟩; rfl
  · rw [if_pos h4]
    constructor
    · simp
    · rintro ⟨_, _, h5, _⟩; exact absurd h5 h4

/-! ## Small effects -/

/-- What one small effect may change. -/
inductive Eff where
  | extend (i : Nat)
  | reset (i : Nat)
  | bss (i : Nat)
  | write (i : Nat)
  | secFlags (i : Nat)
  | reloc (i : Nat)
  | newSection
  | newSymbol
  | secSymbol (i : Nat)
  | symEdit (k : Nat)
  | symMut (k : Nat)
  | map (name : List UInt8)
  | misc

/-- One small effect. -/
inductive Micro : Object → Eff → Object → Prop where
  | extend {o : Object} {i : Nat} {s s' : Section} {d : List UInt8} {a off : Nat} :
      o.sections[i]? = some s → s.appendData d a = .ok (off, s') → Micro o (.extend i) (o.setSection i s')
  | reset {o : Object} {i : Nat} {s s' : Section} {d : List UInt8} {a : Nat} :
      o.sections[i]? = some s → s.setData d a = .ok s' → Micro o (.reset i) (o.setSection i s')
  | bss {o : Object} {i : Nat} {s s' : Section} {n a off : Nat} :
      o.sections[i]? = some s → s.appendBss n a = .ok (off, s') → Micro o (.bss i) (o.setSection i s')
  | write {o : Object} {i : Nat} {s : Section} {d : List UInt8} :
      o.sections[i]? = some s → s.kind.isBss = false → d.length = s.data.length →
        Micro o (.write i) (o.setSection i { s with data := d })
  | secFlags {o : Object} {i : Nat} {s : Section} {f : SecFlags} :
      o.sections[i]? = some s → Micro o (.secFlags i) (o.setSection i { s with flags := f })
  | reloc {o : Object} {i : Nat} {s : Section} {r : Reloc} :
      o.sections[i]? = some s → Micro o (.reloc i) (o.setSection i { s with relocs := s.relocs ++ [r] })
  | newSection {o : Object} {g n : List UInt8} {k : SectionKind} :
      Micro o .newSection (o.addSection g n k).2
  | newSymbol {o : Object} {y : Symbol} :
      y.kind ≠ .sectionSym → Micro o .newSymbol (o.addRawSymbol y).2
  | secSymbol {o o' : Object} {i k : Nat} {s : Section} :
      o.sections[i]? = some s → s.symbol = none → o.sectionSymbol i = .ok (k, o') →
        Micro o (.secSymbol i) o'
  | symEdit {o : Object} {k : Nat} {y y' : Symbol} :
      o.symbols[k]? = some y → y'.name = y.name → y'.kind = y.kind → y'.scope = y.scope →
        y'.weak = y.weak → Micro o (.symEdit k) (o.setSymbol k y')
  | symMut {o : Object} {k : Nat} {y y' : Symbol} :
      o.symbols[k]? = some y → Micro o (.symMut k) (o.setSymbol k y')
  | map {o : Object} {n : List UInt8} {k : Nat} :
      k < o.symbols.length → Micro o (.map n) { o with symMap := insert o.symMap n k }
  | misc {o o' : Object} :
      o'.format = o.format → o'.arch = o.arch → o'.endian = o.endian → o'.sections = o.sections →
        o'.std = o.std → o'.symbols = o.symbols → o'.symMap = o.symMap → Micro o .misc o'

/-- A sequence of small effects, all of them satisfying `P`. -/
inductive Chain (P : Eff → Prop) : Object → Object → Prop where
  | nil {o : Object} : Chain P o o
  | cons {o o1 o2 : Object} {e : Eff} : Micro o e o1 → P e → Chain P o1 o2 → Chain P o o2

theorem Chain.one {P : Eff → Prop} {o o' : Object} {e : Eff} (h : Micro o e o') (he : P e) : Chain P o o' :=
  .cons h he .nil

theorem Chain.trans {P : Eff → Prop} {o o1 o2 : Object} (h : Chain P o o1) (h' : Chain P o1 o2) :
    Chain P o o2 := by
  induction h with
  | nil => exact h'
  | cons h1 h2 _ ih => exact .cons h1 h2 (ih h')

theorem Chain.mono {P Q : Eff → Prop} {o o' : Object} (h : Chain P o o') (hpq : ∀ e, P e → Q e) :
    Chain Q o o' := by
  induction h with
  | nil => exact .nil
  | cons h1 h2 _ ih => exact .cons h1 (hpq _ h2) ih

/-- An invariant relating two states, reflexive and transitive, holding for small effects, holds for
chains. -/
theorem Chain.rel {P : Eff → Prop} {R : Object → Object → Prop} (hr : ∀ o, R o o)
    (ht : ∀ a b c, R a b → R b c → R a c) (hm : ∀ o e o', Micro o e o' → P e → R o o')
    {o o' : Object} (h : Chain P o o') : R o o' := by
  induction h with
  | nil => exact hr _
  | cons h1 h2 _ ih => exact ht _ _ _ (hm _ _ _ h1 h2) ih

/-- A state invariant preserved by small effects is preserved by chains. -/
theorem Chain.inv {P : Eff → Prop} {I : Object → Prop}
    (hm : ∀ o e o', Micro o e o' → P e → I o → I o')
    {o o' : Object} (h : Chain P o o') : I o → I o' := by
  induction h with
  | nil => exact id
  | cons h1 h2 _ ih => exact fun hi => ih (hm _ _ _ h1 h2 hi)

theorem length_setSection (o : Object) (i : Nat) (s : Section) :
    (o.setSection i s).sections.length = o.sections.length := by simp [Object.setSection]

theorem getElem_lt {α : Type} {l : List α} {i : Nat} {x : α} (h : l[i]? = some x) : i < l.length := by
  rw [List.getElem?_eq_some_iff] at h; exact h.1

theorem setSection_get (o : Object) (i j : Nat) (s : Section) (h : i < o.sections.length) :
    (o.setSection i s).sections[j]? = if i = j then some s else o.sections[j]? := by
  simp only [Object.setSection, List.getElem?_set, h, if_true]

/-! ## Every call is a chain of effects -/

theorem addSection_length (o : Object) (g n : List UInt8) (k : SectionKind) :
    (o.addSection g n k).2.sections.length = o.sections.length + 1 := by
  simp [Object.addSection]

theorem addSectionFlags_chain (o : Object) (g n : List UInt8) (k : SectionKind) (f : SecFlags)
    {P : Eff → Prop} (h1 : P .newSection) (h2 : P (.secFlags o.sections.length)) :
    Chain P o ((o.addSection g n k).2.setSectionFlags (o.addSection g n k).1 f) := by
  refine .cons (.newSection (g := g) (n := n) (k := k)) h1 ?_
  unfold Object.setSectionFlags
  split
  · exact .nil
  · rename_i hs; exact .one (.secFlags hs) h2

theorem sectionId_chain (o : Object) (ss : StdSection) {P : Eff → Prop} (h1 : P .newSection)
    (h2 : P (.secFlags o.sections.length)) : Chain P o (o.sectionId ss).2 := by
  unfold Object.sectionId
  split
  · exact .nil
  · exact addSectionFlags_chain o _ _ _ _ h1 h2

theorem addSubsection_chain {o : Object} {ss : StdSection} {v : List UInt8} {r : Nat × Object}
    (h : o.addSubsection ss v = .ok r) {P : Eff → Prop} (h1 : P .newSection)
    (h2 : P (.secFlags o.sections.length)) : Chain P o r.2 := by
  unfold Object.addSubsection at h
  split at h
  · simp only [Res.ok.injEq] at h; subst h; exact sectionId_chain o ss h1 h2
  · simp only at h
    split at h
    · simp at h
    · simp only [Res.ok.injEq] at h; subst h; exact addSectionFlags_chain o _ _ _ _ h1 h2

theorem sectionSymbol_chain {o : Object} {i : Nat} {r : Nat × Object} (h : o.sectionSymbol i = .ok r)
    {P : Eff → Prop} (hp : P (.secSymbol i)) : Chain P o r.2 := by
  have h0 := h
  unfold Object.sectionSymbol at h
  split at h
  · simp at h
  · rename_i s hs
    split at h
    · simp only [Res.ok.injEq] at h; subst h; exact .nil
    · rename_i hn
      exact .one (.secSymbol hs hn h0) hp

theorem appendSectionData_chain {o : Object} {i : Nat} {d : List UInt8} {a : Nat} {r : Nat × Object}
    (h : o.appendSectionData i d a = .ok r) {P : Eff → Prop} (hp : P (.extend i)) : Chain P o r.2 := by
  unfold Object.appendSectionData at h
  split at h
  · simp at h
  · rename_i s hs
    match hs' : s.appendData d a with
    | .ok q =>
      rw [hs', Res.ok_bind] at h
      simp only [Res.ok.injEq] at h
      subst h
      exact .one (.extend (off := q.1) hs hs') hp
    | .err => rw [hs'] at h; simp at h
    | .panic => rw [hs'] at h; simp at h

theorem appendSectionBss_chain {o : Object} {i n a : Nat} {r : Nat × Object}
    (h : o.appendSectionBss i n a = .ok r) {P : Eff → Prop} (hp : P (.bss i)) : Chain P o r.2 := by
  unfold Object.appendSectionBss at h
  split at h
  · simp at h
  · rename_i s hs
    match hs' : s.appendBss n a with
    | .ok q =>
      rw [hs', Res.ok_bind] at h
      simp only [Res.ok.injEq] at h
      subst h
      exact .one (.bss (off := q.1) hs hs') hp
    | .err => rw [hs'] at h; simp at h
    | .panic => rw [hs'] at h; simp at h

theorem setSectionData_chain {o o' : Object} {i : Nat} {d : List UInt8} {a : Nat}
    (h : o.setSectionData i d a = .ok o') {P : Eff → Prop} (hp : P (.reset i)) : Chain P o o' := by
  unfold Object.setSectionData at h
  split at h
  · simp at h
  · rename_i s hs
    match hs' : s.setData d a with
    | .ok q =>
      rw [hs', Res.ok_bind] at h
      simp only [Res.ok.injEq] at h
      subst h
      exact .one (.reset hs hs') hp
    | .err => rw [hs'] at h; simp at h
    | .panic => rw [hs'] at h; simp at h

theorem named_iff (s : Symbol) : s.named = true ↔ Named s := by
  simp only [Symbol.named, Named, Bool.and_eq_true, bne_iff_ne, ne_eq, Bool.or_eq_true, beq_iff_eq]
  rw [or_assoc]


theorem setSymbol_chain {o : Object} {k : Nat} {y y' : Symbol} (hy : o.symbols[k]? = some y)
    (h1 : y'.name = y.name) (h2 : y'.kind = y.kind) (h3 : y'.scope = y.scope) (h4 : y'.weak = y.weak)
    {P : Eff → Prop} (hp : P (.symEdit k)) : Chain P o (o.setSymbol k y') :=
  .one (.symEdit hy h1 h2 h3 h4) hp

theorem addSymbol_chain {o : Object} {s : Symbol} {r : Nat × Object} (h : o.addSymbol s = .ok r)
    {P : Eff → Prop} (hsec : ∀ i, P (.secSymbol i)) (hedit : ∀ k, P (.symEdit k)) (hnew : P .newSymbol)
    (hmap : Named s → P (.map s.name)) : Chain P o r.2 := by
  unfold Object.addSymbol at h
  split at h
  · simp at h
  split at h
  · split at h
    · simp at h
    · rename_i i hi
      match hs : o.sectionSymbol i with
      | .ok q =>
        have hc := sectionSymbol_chain hs (P := P) (hsec i)
        rw [hs, Res.ok_bind] at h
        split at h
        · split at h
          · simp at h
          · rename_i old hold
            simp only [Res.ok.injEq] at h
            subst h
            exact hc.trans (setSymbol_chain (y' := { old with flags := s.flags }) hold rfl rfl rfl rfl (hedit _))
        · simp only [Res.ok.injEq] at h; subst h; exact hc
      | .err => rw [hs] at h; simp at h
      | .panic => rw [hs] at h; simp at h
  · rename_i hk
    split at h
    · rename_i hn
      simp only [Res.ok.injEq] at h
      subst h
      have hk' : ∀ y : Symbol, y = (match o.mangling.prefix? with
          | some p => { s with name := p :: s.name }
          | none => s) → y.kind ≠ .sectionSym := by
        intro y hy; subst hy; split <;> exact hk
      refine .cons (.newSymbol (hk' _ rfl)) hnew (.one (.map ?_) (hmap ((named_iff s).1 hn)))
      simp [Object.addRawSymbol]
    · simp only [Res.ok.injEq] at h; subst h
      exact .one (.newSymbol hk) hnew

theorem patch_length {d src : List UInt8} {off : Nat} (h : off ≤ d.length) (h2 : src.length ≤ d.length - off) :
    (patch d off src).length = d.length := by
  unfold patch
  simp only [List.length_append, List.length_take, List.length_drop]
  omega

theorem writeAddend_chain {o o' : Object} {i : Nat} {r : Reloc} (h : o.writeAddend i r = .ok o')
    {P : Eff → Prop} (hp : P (.write i)) : Chain P o o' := by
  unfold Object.writeAddend at h
  match hs : relocSize o.format o.arch r with
  | .err => rw [hs] at h; simp at h
  | .panic => rw [hs] at h; simp at h
  | .ok n =>
    rw [hs, Res.ok_bind] at h
    split at h
    · simp at h
    · rename_i s hsec
      split at h
      · simp at h
      · rename_i hb
        simp only at h
        have key : ∀ src : List UInt8,
            (if r.offset ≤ s.data.length ∧ src.length ≤ s.data.length - r.offset then
              Res.ok (o.setSection i { s with data := patch s.data r.offset src }) else .err) = .ok o' →
            Chain P o o' := by
          intro src hh
          split at hh
          · rename_i hl
            simp only [Res.ok.injEq] at hh
            subst hh
            exact .one (.write hsec (by simpa using hb) (patch_length hl.1 hl.2)) hp
          · simp at hh
        split at h
        · exact key _ h
        · split at h
          · exact key _ h
          · simp at h

theorem pushReloc_chain (o : Object) (i : Nat) (r : Reloc) {P : Eff → Prop} (hp : P (.reloc i)) :
    Chain P o (match o.sections[i]? with
      | none => ((Res.panic : Res Unit), o)
      | some s => (.ok (), o.setSection i { s with relocs := s.relocs ++ [r] })).2 := by
  split
  · exact .nil
  · rename_i hs; exact .one (.reloc hs) hp

theorem finishReloc_chain (o : Object) (i : Nat) (r : Reloc) {P : Eff → Prop}
    (hw : (∃ b r', adjustAddend o.format o.arch r = .ok (b, r') ∧ r'.addend ≠ 0) → P (.write i))
    (hr : P (.reloc i)) : Chain P o (o.finishReloc i r).2 := by
  unfold Object.finishReloc
  split
  · exact .nil
  · exact .nil
  · rename_i b r' ha
    simp only
    split
    · rename_i hb
      match hs : o.writeAddend i r' with
      | .err => exact .nil
      | .panic => exact .nil
      | .ok o' => exact (writeAddend_chain hs (hw ⟨_, _, ha, hb.2⟩)).trans (pushReloc_chain _ _ _ hr)
    · exact pushReloc_chain _ _ _ hr

theorem coffType_abs {arch : Arch} {enc : RelocEnc} {n : Nat} {a : Int} {t : Nat}
    (h : coffType arch .absolute enc n a = some t) : coffPcOffset arch t = .ok 0 := by
  cases arch <;> simp only [coffType, reduceCtorEq] at h <;> split at h <;>
    simp_all [coffPcOffset] <;> subst h <;> decide

theorem machoType_abs {arch : Arch} {p : Bool} {t : Nat}
    (h : machoType arch .absolute .generic = some (p, t)) : p = false := by
  cases arch <;> simp_all [machoType]

theorem addI64_zero : addI64 0 0 = .ok 0 := by decide

/-- A relocation with an absolute generic kind and addend 0 never writes to section data. -/
theorem addRelocWith_abs (stub : Object → Nat → St Nat) (o : Object) (i : Nat) (r : Reloc) (n : Nat)
    (hf : o.format = .coff ∨ o.format = .macho) (hr : r.flags = .generic .absolute .generic n)
    (ha : r.addend = 0) {P : Eff → Prop} (hp : P (.reloc i)) : Chain P o (o.addRelocWith stub i r).2 := by
  unfold Object.addRelocWith Object.translate
  obtain hf | hf := hf
  · rw [hf]
    simp only [Object.coffTranslate, hr, reduceCtorEq, if_false]
    match hc : coffType o.arch .absolute .generic n r.addend with
    | none => exact .nil
    | some t =>
      refine finishReloc_chain _ _ _ ?_ hp
      rintro ⟨b, r', h1, h2⟩
      rw [hf] at h1
      simp only [adjustAddend, coffType_abs hc, ha, Res.ok_bind, addI64_zero, Res.ok.injEq,
        Prod.mk.injEq] at h1
      rw [← h1.2] at h2
      exact absurd rfl h2
  · rw [hf]
    simp only [Object.machoTranslate, hr, reduceCtorEq, false_and, and_false, if_false]
    match hl : machoLength o.arch n with
    | none => exact .nil
    | some len =>
      simp only
      match hc : machoType o.arch .absolute .generic with
      | none => exact .nil
      | some (p, t) =>
        refine finishReloc_chain _ _ _ ?_ hp
        rintro ⟨b, r', h1, h2⟩
        rw [hf] at h1
        simp only [adjustAddend, machoType_abs hc, machoPcOffset, ha, Res.ok_bind, addI64_zero, Res.ok.injEq,
          Prod.mk.injEq, Bool.false_eq_true, if_false] at h1
        rw [← h1.2] at h2
        exact absurd rfl h2

theorem format_micro {o o' : Object} {e : Eff} (h : Micro o e o') :
    o'.format = o.format ∧ o'.arch = o.arch := by
  cases h with
  | secSymbol h1 h2 h3 =>
    unfold Object.sectionSymbol at h3
    rw [h1] at h3
    simp only [h2, Res.ok.injEq, Prod.mk.injEq] at h3
    rw [← h3.2]; exact ⟨rfl, rfl⟩
  | misc h1 h2 => exact ⟨h1, h2⟩
  | _ => exact ⟨rfl, rfl⟩

theorem sections_micro {o o' : Object} {e : Eff} (h : Micro o e o') :
    o.sections.length ≤ o'.sections.length := by
  cases h with
  | secSymbol h1 h2 h3 =>
    unfold Object.sectionSymbol at h3
    rw [h1] at h3
    simp only [h2, Res.ok.injEq, Prod.mk.injEq] at h3
    rw [← h3.2]; simp
  | misc h1 h2 h3 h4 => rw [h4]; exact Nat.le_refl _
  | newSection => rw [addSection_length]; omega
  | _ => simp [Object.setSection, Object.addRawSymbol, Object.setSymbol]

theorem Chain.format {P : Eff → Prop} {o o' : Object} (h : Chain P o o') : o'.format = o.format := by
  induction h with
  | nil => rfl
  | cons h1 _ _ ih => rw [ih, (format_micro h1).1]

theorem Chain.length {P : Eff → Prop} {o o' : Object} (h : Chain P o o') :
    o.sections.length ≤ o'.sections.length := by
  induction h with
  | nil => exact Nat.le_refl _
  | cons h1 _ _ ih => exact Nat.le_trans (sections_micro h1) ih

theorem coffStub_chain (o : Object) (k : Nat) (hf : o.format = .coff) {P : Eff → Prop}
    (h1 : P .newSection) (h2 : P (.reset o.sections.length)) (h3 : P (.reloc o.sections.length))
    (h4 : P .newSymbol) (h5 : P .misc) : Chain P o (o.coffStub k).2 := by
  unfold Object.coffStub
  split
  · exact .nil
  · split
    · exact .nil
    · rename_i size _
      simp only
      refine .cons (.newSection (g := []) (n := [46, 114, 100, 97, 116, 97, 36, 46, 114, 101, 102, 112, 116, 114])
        (k := .readOnlyData)) h1 ?_
      split
      · exact .nil
      · exact .nil
      · rename_i o1 ho1
        have c1 := setSectionData_chain ho1 (P := P) h2
        refine c1.trans ?_
        have c2 := addRelocWith_abs (fun o _ => (.panic, o)) o1 o.sections.length
          { offset := 0, symbol := k, subtractor := none, addend := 0,
            flags := .generic .absolute .generic (size * 8) } (size * 8)
          (Or.inl (by rw [c1.format]; exact hf)) rfl rfl (P := P) h3
        generalize hq : o1.addRelocWith (fun o _ => (.panic, o)) o.sections.length
          { offset := 0, symbol := k, subtractor := none, addend := 0,
            flags := .generic .absolute .generic (size * 8) } = q at c2
        have hq' : o1.addRelocWith (fun o _ => (.panic, o)) (o.addSection [] [46, 114, 100, 97, 116, 97, 36, 46, 114, 101, 102, 112, 116, 114] .readOnlyData).1
          { offset := 0, symbol := k, subtractor := none, addend := 0,
            flags := .generic .absolute .generic (size * 8) } = q := hq
        rw [hq']
        split
        · exact c2
        · exact c2
        · refine Chain.trans c2 ?_
          split
          · exact .nil
          · exact .cons (.newSymbol (by simp)) h4 (.one (.misc rfl rfl rfl rfl rfl rfl rfl) h5)

theorem machoTranslate_chain (o : Object) (i : Nat) (r : Reloc) {P : Eff → Prop}
    (h : ∀ i, P (.secSymbol i)) : Chain P o (o.machoTranslate i r).2 := by
  unfold Object.machoTranslate
  split
  · split
    · exact .nil
    · split
      · exact .nil
      · simp only
        split
        · split
          · rename_i heq
            have c := sectionSymbol_chain heq (P := P) (h i)
            split <;> exact c
          · exact .nil
          · exact .nil
        · exact .nil
  · exact .nil

theorem translate_chain (o : Object) (i : Nat) (r : Reloc) {P : Eff → Prop}
    (h : ∀ i, P (.secSymbol i)) (h1 : P .newSection) (h2 : P (.reset o.sections.length))
    (h3 : P (.reloc o.sections.length)) (h4 : P .newSymbol) (h5 : P .misc) :
    Chain P o (o.translate Object.coffStub i r).2 := by
  unfold Object.translate
  split
  · rename_i hf
    unfold Object.coffTranslate
    split
    · simp only
      split
      · have c := coffStub_chain o r.symbol hf h1 h2 h3 h4 h5
        split
        · rename_i heq
          have := congrArg Prod.snd heq
          simp only at this
          rw [this] at c
          split <;> exact c
        · rename_i heq
          have := congrArg Prod.snd heq
          simp only at this
          rw [this] at c; exact c
        · rename_i heq
          have := congrArg Prod.snd heq
          simp only at this
          rw [this] at c; exact c
      · split
        · split <;> exact .nil
        · split <;> exact .nil
    · exact .nil
  · unfold Object.elfTranslate
    split
    · split <;> exact .nil
    · exact .nil
  · exact machoTranslate_chain o i r h
  · unfold Object.xcoffTranslate
    split
    · split
      · exact .nil
      · split <;> exact .nil
    · exact .nil

theorem addRelocation_chain (o : Object) (i f y : Nat) (a : Int) (g : RelocFlags) (b : Option Nat)
    {P : Eff → Prop} (hw : P (.write i)) (hr : P (.reloc i))
    (h : ∀ i, P (.secSymbol i)) (h1 : P .newSection) (h2 : P (.reset o.sections.length))
    (h3 : P (.reloc o.sections.length)) (h4 : P .newSymbol) (h5 : P .misc) :
    Chain P o (o.addRelocation i f y a g b).2 := by
  unfold Object.addRelocation
  split
  · exact .nil
  · unfold Object.addRelocInternal Object.addRelocWith
    have c := translate_chain o i { offset := f, symbol := y, subtractor := b, addend := a, flags := g }
      h h1 h2 h3 h4 h5
    split
    · rename_i heq
      have := congrArg Prod.snd heq
      simp only at this
      rw [this] at c; exact c
    · rename_i heq
      have := congrArg Prod.snd heq
      simp only at this
      rw [this] at c; exact c
    · rename_i heq
      have := congrArg Prod.snd heq
      simp only at this
      rw [this] at c
      exact c.trans (finishReloc_chain _ _ _ (fun _ => hw) hr)

theorem sectionId_fst (o : Object) (ss : StdSection) :
    o.std ss = some (o.sectionId ss).1 ∨ (o.std ss = none ∧ (o.sectionId ss).1 = o.sections.length) := by
  unfold Object.sectionId
  split
  · rename_i h; exact Or.inl h
  · rename_i h; exact Or.inr ⟨h, rfl⟩

theorem addThreadVar_chain {o : Object} {y : Nat} {r : Nat × Object} (h : o.addThreadVar y = .ok r)
    (hf : o.format = .macho) {P : Eff → Prop} (h1 : P .newSection)
    (h2 : P (.secFlags o.sections.length)) (h3 : P .newSymbol) (h4 : P .misc)
    (h5 : ∀ k, P (.symEdit k)) (h6 : P (.map tlvName))
    (h7 : ∀ i, o.std .tlsVariables = some i ∨ i = o.sections.length → P (.extend i) ∧ P (.reloc i)) :
    Chain P o r.2 := by
  unfold Object.addThreadVar at h
  split at h
  · simp at h
  rename_i s hs
  split at h
  · simp only [Res.ok.injEq] at h; subst h; exact .nil
  simp only at h
  split at h
  · simp at h
  rename_i asize _
  generalize hinit : o.addRawSymbol (Symbol.mk (s.name ++ [36, 116, 108, 118, 36, 105, 110, 105, 116])
    0 0 .tls .compilation false .undefined .none) = init at h
  have c1 : Chain P o init.2 := by rw [← hinit]; exact .one (.newSymbol (by simp)) h3
  have hlen : init.2.sections = o.sections := by rw [← hinit]; rfl
  have hstd : init.2.std = o.std := by rw [← hinit]; rfl
  generalize hsec : init.2.sectionId .tlsVariables = sec at h
  have c2 : Chain P init.2 sec.2 := by
    rw [← hsec]; exact sectionId_chain _ _ h1 (by rw [hlen]; exact h2)
  have h8 := h7 sec.1 (by
    have := sectionId_fst init.2 .tlsVariables
    rw [hsec, hstd, hlen] at this
    exact this.imp id (fun h => h.2))
  match hd : sec.2.appendSectionData sec.1 (List.replicate (asize * 3) 0) asize with
  | .err => rw [hd] at h; simp at h
  | .panic => rw [hd] at h; simp at h
  | .ok d =>
    rw [hd, Res.ok_bind] at h
    have c3 := appendSectionData_chain hd (P := P) h8.1
    match hb : d.2.tlvBootstrapId with
    | .err => rw [hb] at h; simp at h
    | .panic => rw [hb] at h; simp at h
    | .ok b =>
      rw [hb, Res.ok_bind] at h
      have c4 : Chain P d.2 b.2 := by
        unfold Object.tlvBootstrapId at hb
        split at hb
        · simp only [Res.ok.injEq] at hb; subst hb; exact .nil
        · match hq : d.2.addSymbol
            { name := [95, 116, 108, 118, 95, 98, 111, 111, 116, 115, 116, 114, 97, 112], value := 0, size := 0,
              kind := .text, scope := .dynamic, weak := false, section_ := .undefined, flags := .none } with
          | .err => rw [hq] at hb; simp at hb
          | .panic => rw [hq] at hb; simp at hb
          | .ok q =>
            rw [hq, Res.ok_bind] at hb
            simp only [Res.ok.injEq] at hb
            subst hb
            unfold Object.addSymbol at hq
            rw [if_neg (by simp), if_neg (by simp), if_pos (by decide)] at hq
            simp only [Res.ok.injEq] at hq
            subst hq
            refine .cons (.newSymbol ?_) h3 (.cons (.map ?_) h6 (.one (.misc rfl rfl rfl rfl rfl rfl rfl) h4))
            · split <;> simp
            · simp [Object.addRawSymbol]
      have c14 := ((c1.trans c2).trans c3).trans c4
      have hf' : b.2.format = .macho := by rw [c14.format, hf]
      have key : ∀ (oo : Object) (f k : Nat), oo.format = .macho →
          Chain P oo (oo.addRelocation sec.1 f k 0 (.generic .absolute .generic (asize * 8)) none).2 := by
        intro oo f k hoo
        unfold Object.addRelocation
        rw [if_neg (by simp)]
        exact addRelocWith_abs _ _ _ _ (asize * 8) (Or.inr hoo) rfl rfl h8.2
      have c5 := key b.2 d.1 b.1 hf'
      split at h
      · rename_i o1 heq
        have := congrArg Prod.snd heq
        simp only at this
        rw [this] at c5
        have c6 := key o1 (d.1 + asize * 2) init.1 (by rw [c5.format, hf'])
        split at h
        · rename_i o2 heq2
          have := congrArg Prod.snd heq2
          simp only at this
          rw [this] at c6
          split at h
          · simp at h
          · rename_i t ht
            simp only [Res.ok.injEq] at h
            subst h
            exact ((c14.trans c5).trans c6).trans (setSymbol_chain
              (y' := { t with value := d.1, size := asize * 3, section_ := .inSec sec.1 }) ht rfl rfl rfl rfl
              (h5 _))
        · simp at h
      · simp at h

theorem setSymbolData_chain {o o' : Object} {y i f n : Nat} (h : o.setSymbolData y i f n = .ok o')
    {P : Eff → Prop} (h1 : P .newSection)
    (h2 : P (.secFlags o.sections.length)) (h3 : P .newSymbol) (h4 : P .misc)
    (h5 : ∀ k, P (.symEdit k)) (h6 : P (.map tlvName))
    (h7 : o.format = .macho → ∀ i, o.std .tlsVariables = some i ∨ i = o.sections.length →
      P (.extend i) ∧ P (.reloc i)) :
    Chain P o o' := by
  unfold Object.setSymbolData at h
  split at h
  · simp at h
  split at h
  · simp at h
  have key : ∀ r : Nat × Object, Chain P o r.2 →
      (match r.2.symbols[r.1]? with
        | none => Res.panic
        | some t => .ok (r.2.setSymbol r.1 { t with value := f, size := n, section_ := .inSec i })) = .ok o' →
      Chain P o o' := by
    intro r c h
    split at h
    · simp at h
    · rename_i t ht
      simp only [Res.ok.injEq] at h
      subst h
      exact c.trans (setSymbol_chain (y' := { t with value := f, size := n, section_ := .inSec i })
        ht rfl rfl rfl rfl (h5 _))
  split at h
  · rename_i hf
    match hs : o.addThreadVar y with
    | .err => rw [hs] at h; simp at h
    | .panic => rw [hs] at h; simp at h
    | .ok r =>
      rw [hs, Res.ok_bind] at h
      exact key r (addThreadVar_chain hs hf h1 h2 h3 h4 h5 h6 (h7 hf)) h
  · rw [Res.ok_bind] at h
    exact key (y, o) .nil h

theorem symbolSectionAndOffset_chain {o : Object} {y : Nat} {r : Option (Nat × Nat) × Object}
    (h : o.symbolSectionAndOffset y = .ok r) {P : Eff → Prop} (hp : ∀ i, P (.secSymbol i)) :
    Chain P o r.2 := by
  unfold Object.symbolSectionAndOffset at h
  split at h
  · simp at h
  split at h
  · simp only [Res.ok.injEq] at h; subst h; exact .nil
  split at h
  · simp only [Res.ok.injEq] at h; subst h; exact .nil
  · rename_i i _
    match hs : o.sectionSymbol i with
    | .err => rw [hs] at h; simp at h
    | .panic => rw [hs] at h; simp at h
    | .ok q =>
      rw [hs, Res.ok_bind] at h
      simp only [Res.ok.injEq] at h
      subst h
      exact sectionSymbol_chain hs (hp i)

/-- The effects a call may have. -/
def Allowed (o : Object) (op : Op) : Eff → Prop
  | .write i => Overwrites i op
  | .reset i => o.sections.length ≤ i ∨ ResetsAlign i op
  | .extend i => o.sections.length ≤ i ∨ Touches o i op
  | .bss i => o.sections.length ≤ i ∨ Touches o i op
  | .secFlags i => o.sections.length ≤ i ∨ Touches o i op
  | .reloc i => o.sections.length ≤ i ∨ Touches o i op
  | .symMut _ => EditsSymbol op
  | .map n => Defines n op
  | _ => True

theorem setSection_std (o : Object) (i : Nat) (s : Section) : (o.setSection i s).std = o.std := rfl

theorem appendSectionData_frame {o : Object} {i : Nat} {d : List UInt8} {a : Nat} {r : Nat × Object}
    (h : o.appendSectionData i d a = .ok r) :
    r.2.std = o.std ∧ r.2.format = o.format ∧ r.2.sections.length = o.sections.length := by
  unfold Object.appendSectionData at h
  split at h
  · simp at h
  · rename_i s _
    match hs' : s.appendData d a with
    | .ok q =>
      rw [hs', Res.ok_bind] at h
      simp only [Res.ok.injEq] at h
      subst h
      exact ⟨rfl, rfl, length_setSection _ _ _⟩
    | .err => rw [hs'] at h; simp at h
    | .panic => rw [hs'] at h; simp at h

theorem appendSectionBss_frame {o : Object} {i n a : Nat} {r : Nat × Object}
    (h : o.appendSectionBss i n a = .ok r) :
    r.2.std = o.std ∧ r.2.format = o.format ∧ r.2.sections.length = o.sections.length := by
  unfold Object.appendSectionBss at h
  split at h
  · simp at h
  · rename_i s _
    match hs' : s.appendBss n a with
    | .ok q =>
      rw [hs', Res.ok_bind] at h
      simp only [Res.ok.injEq] at h
      subst h
      exact ⟨rfl, rfl, length_setSection _ _ _⟩
    | .err => rw [hs'] at h; simp at h
    | .panic => rw [hs'] at h; simp at h

theorem step_chain {o o' : Object} {op : Op} (h : step o op = some o') : Chain (Allowed o op) o o' := by
  cases op with
  | setMangling m =>
    simp only [step, Option.some.injEq] at h; subst h
    exact .one (.misc rfl rfl rfl rfl rfl rfl rfl) trivial
  | setSubsectionsViaSymbols =>
    simp only [step, Option.some.injEq] at h; subst h
    split
    · exact .one (.misc rfl rfl rfl rfl rfl rfl rfl) trivial
    · exact .nil
  | setSectionData i d a =>
    simp only [step] at h
    split at h
    · rename_i heq; simp only [Option.some.injEq] at h; subst h
      exact setSectionData_chain heq (Or.inr rfl)
    · simp at h
  | appendSectionData i d a =>
    simp only [step] at h
    split at h
    · rename_i heq; simp only [Option.some.injEq] at h; subst h
      exact appendSectionData_chain heq (Or.inr rfl)
    · simp at h
  | appendSectionBss i n a =>
    simp only [step] at h
    split at h
    · rename_i heq; simp only [Option.some.injEq] at h; subst h
      exact appendSectionBss_chain heq (Or.inr rfl)
    · simp at h
  | dataMut i d =>
    simp only [step] at h
    split at h
    · simp at h
    · rename_i s hs
      split at h
      · simp at h
      · rename_i hc
        simp only [Option.some.injEq] at h; subst h
        simp only [not_or, Decidable.not_not, ne_eq, Bool.not_eq_true] at hc
        exact .one (.write hs hc.1 hc.2) rfl
  | setSectionFlags i f =>
    simp only [step] at h
    split at h
    · simp only [Option.some.injEq] at h; subst h
      unfold Object.setSectionFlags
      split
      · exact .nil
      · rename_i hs; exact .one (.secFlags hs) (Or.inr rfl)
    · simp at h
  | sectionId ss =>
    simp only [step, Option.some.injEq] at h; subst h
    exact sectionId_chain o ss trivial (Or.inl (Nat.le_refl _))
  | addSection g n k =>
    simp only [step, Option.some.injEq] at h; subst h
    exact .one .newSection trivial
  | addGnuProperty p v =>
    simp only [step] at h
    split at h
    · rename_i o1 heq; simp only [Option.some.injEq] at h; subst h
      unfold Object.addGnuProperty at heq
      split at heq
      · simp only [Res.ok.injEq] at heq; subst heq; exact .nil
      rename_i hf
      split at heq
      · simp at heq
      obtain ⟨data, -, heq⟩ := bind_ok_iff.1 heq
      obtain ⟨r, h1, heq⟩ := bind_ok_iff.1 heq
      simp only [Res.ok.injEq] at heq; subst heq
      refine (sectionId_chain o .gnuProperty trivial (Or.inl (Nat.le_refl _))).trans
        (appendSectionData_chain h1 ?_)
      rcases sectionId_fst o .gnuProperty with hx | ⟨-, hx⟩
      · exact Or.inr ⟨Decidable.not_not.1 hf, hx⟩
      · exact Or.inl (by rw [hx]; exact Nat.le_refl _)
    · simp at h
  | addSubsection ss v =>
    simp only [step] at h
    split at h
    · rename_i heq; simp only [Option.some.injEq] at h; subst h
      exact addSubsection_chain heq trivial (Or.inl (Nat.le_refl _))
    · simp at h
  | addComdat c =>
    simp only [step, Option.some.injEq] at h; subst h
    exact .one (.misc rfl rfl rfl rfl rfl rfl rfl) trivial
  | addSymbol s =>
    simp only [step] at h
    split at h
    · rename_i heq; simp only [Option.some.injEq] at h; subst h
      exact addSymbol_chain heq (fun _ => trivial) (fun _ => trivial) trivial (fun hn => ⟨hn, rfl⟩)
    · simp at h
  | addCommonSymbol s n a =>
    simp only [step] at h
    split at h
    · rename_i heq; simp only [Option.some.injEq] at h; subst h
      unfold Object.addCommonSymbol at heq
      exact addSymbol_chain heq (fun _ => trivial) (fun _ => trivial) trivial (fun hn => ⟨hn, rfl⟩)
    · simp at h
  | addFileSymbol n =>
    simp only [step, Option.some.injEq] at h; subst h
    exact .one (.newSymbol (by simp)) trivial
  | symbolMut i s =>
    simp only [step] at h
    split at h
    · rename_i hi
      simp only [Option.some.injEq] at h; subst h
      exact .one (.symMut (List.getElem?_eq_getElem hi)) trivial
    · simp at h
  | sectionSymbol i =>
    simp only [step] at h
    split at h
    · rename_i heq; simp only [Option.some.injEq] at h; subst h
      exact sectionSymbol_chain heq trivial
    · simp at h
  | addSymbolData y i d a =>
    simp only [step] at h
    split at h
    · rename_i r heq; simp only [Option.some.injEq] at h; subst h
      unfold Object.addSymbolData at heq
      simp only at heq
      generalize (if d = [] ∧ o.subsectionsViaSymbols = true then [0] else d) = d' at heq
      match hs : o.appendSectionData i d' a with
      | .err => rw [hs] at heq; simp at heq
      | .panic => rw [hs] at heq; simp at heq
      | .ok q =>
        rw [hs, Res.ok_bind] at heq
        match hs2 : q.2.setSymbolData y i q.1 d'.length with
        | .err => rw [hs2] at heq; simp at heq
        | .panic => rw [hs2] at heq; simp at heq
        | .ok o'' =>
          rw [hs2, Res.ok_bind] at heq
          simp only [Res.ok.injEq] at heq
          subst heq
          obtain ⟨e1, e2, e3⟩ := appendSectionData_frame hs
          refine (appendSectionData_chain hs (Or.inr (Or.inl rfl))).trans
            (setSymbolData_chain hs2 trivial ?_ trivial trivial (fun _ => trivial) rfl ?_)
          · rw [e3]; exact Or.inl (Nat.le_refl _)
          · rw [e1, e2, e3]
            intro hm k hk
            have : o.sections.length ≤ k ∨ Touches o k (.addSymbolData y i d a) := by
              obtain hk | hk := hk
              · exact Or.inr (Or.inr ⟨hm, hk⟩)
              · exact Or.inl (by omega)
            exact ⟨this, this⟩
    · simp at h
  | addSymbolBss y i n a =>
    simp only [step] at h
    split at h
    · rename_i r heq; simp only [Option.some.injEq] at h; subst h
      unfold Object.addSymbolBss at heq
      simp only at heq
      generalize (if n = 0 ∧ o.subsectionsViaSymbols = true then 1 else n) = n' at heq
      match hs : o.appendSectionBss i n' a with
      | .err => rw [hs] at heq; simp at heq
      | .panic => rw [hs] at heq; simp at heq
      | .ok q =>
        rw [hs, Res.ok_bind] at heq
        match hs2 : q.2.setSymbolData y i q.1 n' with
        | .err => rw [hs2] at heq; simp at heq
        | .panic => rw [hs2] at heq; simp at heq
        | .ok o'' =>
          rw [hs2, Res.ok_bind] at heq
          simp only [Res.ok.injEq] at heq
          subst heq
          obtain ⟨e1, e2, e3⟩ := appendSectionBss_frame hs
          refine (appendSectionBss_chain hs (Or.inr (Or.inl rfl))).trans
            (setSymbolData_chain hs2 trivial ?_ trivial trivial (fun _ => trivial) rfl ?_)
          · rw [e3]; exact Or.inl (Nat.le_refl _)
          · rw [e1, e2, e3]
            intro hm k hk
            have : o.sections.length ≤ k ∨ Touches o k (.addSymbolBss y i n a) := by
              obtain hk | hk := hk
              · exact Or.inr (Or.inr ⟨hm, hk⟩)
              · exact Or.inl (by omega)
            exact ⟨this, this⟩
    · simp at h
  | setSymbolData y i f n =>
    simp only [step] at h
    split at h
    · rename_i heq; simp only [Option.some.injEq] at h; subst h
      refine setSymbolData_chain heq trivial (Or.inl (Nat.le_refl _)) trivial trivial (fun _ => trivial) rfl ?_
      intro hm k hk
      have : o.sections.length ≤ k ∨ Touches o k (.setSymbolData y i f n) := by
        obtain hk | hk := hk
        · exact Or.inr ⟨hm, hk⟩
        · exact Or.inl (by omega)
      exact ⟨this, this⟩
    · simp at h
  | symbolSectionAndOffset y =>
    simp only [step] at h
    split at h
    · rename_i heq; simp only [Option.some.injEq] at h; subst h
      exact symbolSectionAndOffset_chain heq (fun _ => trivial)
    · simp at h
  | addRelocation i f y a g b =>
    have c := addRelocation_chain o i f y a g b (P := Allowed o (.addRelocation i f y a g b))
      rfl (Or.inr rfl) (fun _ => trivial) trivial (Or.inl (Nat.le_refl _)) (Or.inl (Nat.le_refl _))
      trivial trivial
    simp only [step] at h
    split at h
    · simp at h
    · rename_i heq
      have := congrArg Prod.snd heq
      simp only at this
      rw [this] at c
      simp only [Option.some.injEq] at h
      subst h; exact c

end Obj.W
