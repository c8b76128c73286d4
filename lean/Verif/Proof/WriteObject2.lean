import Verif.Proof.WriteObject

/-!
# Histories of the object builder
-/

namespace Obj.W
open Obj.W.Spec

theorem Spec.StartsWith.refl {α : Type} (l : List α) : StartsWith l l := ⟨[], by simp⟩

theorem Spec.StartsWith.trans {α : Type} {a b c : List α} (h : StartsWith a b) (h' : StartsWith b c) :
    StartsWith a c := by
  obtain ⟨x, rfl⟩ := h; obtain ⟨y, rfl⟩ := h'; exact ⟨x ++ y, by simp⟩

/-- Effects on section `j` other than its section symbol. -/
def Hits (j : Nat) : Eff → Prop
  | .extend i | .reset i | .bss i | .write i | .secFlags i | .reloc i => i = j
  | _ => False

/-- How section `j` may evolve. -/
structure SecRel (P : Eff → Prop) (j : Nat) (s s' : Section) : Prop where
  segment : s'.segment = s.segment
  name : s'.name = s.name
  kind : s'.kind = s.kind
  symbol : ∀ k, s.symbol = some k → s'.symbol = some k
  relocs : StartsWith s.relocs s'.relocs
  data : ¬ P (.write j) → StartsWith s.data s'.data
  len : s.data.length ≤ s'.data.length
  align : ¬ P (.reset j) → s.align ≤ s'.align
  bss : s.kind.isBss = true → s.size ≤ s'.size
  frame : (∀ e, Hits j e → ¬ P e) → s' = { s with symbol := s'.symbol }

theorem SecRel.refl (P : Eff → Prop) (j : Nat) (s : Section) : SecRel P j s s :=
  ⟨rfl, rfl, rfl, fun _ h => h, StartsWith.refl _, fun _ => StartsWith.refl _, Nat.le_refl _,
    fun _ => Nat.le_refl _, fun _ => Nat.le_refl _, fun _ => rfl⟩

theorem SecRel.trans {P : Eff → Prop} {j : Nat} {a b c : Section} (h : SecRel P j a b) (h' : SecRel P j b c) :
    SecRel P j a c where
  segment := by rw [h'.segment, h.segment]
  name := by rw [h'.name, h.name]
  kind := by rw [h'.kind, h.kind]
  symbol := fun k hk => h'.symbol k (h.symbol k hk)
  relocs := h.relocs.trans h'.relocs
  data := fun hp => (h.data hp).trans (h'.data hp)
  len := Nat.le_trans h.len h'.len
  align := fun hp => Nat.le_trans (h.align hp) (h'.align hp)
  bss := fun hb => Nat.le_trans (h.bss hb) (h'.bss (by rw [h.kind]; exact hb))
  frame := fun hp => by
    have e1 := h.frame hp
    have e2 := h'.frame hp
    rw [e2, e1]

theorem sectionSymbol_new {o o' : Object} {i k : Nat} {s : Section} (hs : o.sections[i]? = some s)
    (hn : s.symbol = none) (h : o.sectionSymbol i = .ok (k, o')) :
    k = o.symbols.length ∧ ∃ y : Symbol, y.kind = .sectionSym ∧ y.section_ = .inSec i ∧
      o' = { o with symbols := o.symbols ++ [y], sections := o.sections.set i { s with symbol := some k } } := by
  unfold Object.sectionSymbol at h
  rw [hs] at h
  simp only [hn, Res.ok.injEq, Prod.mk.injEq] at h
  obtain ⟨rfl, rfl⟩ := h
  exact ⟨rfl, _, rfl, rfl, rfl⟩

theorem getElem_set_self {α : Type} {l : List α} {i : Nat} {x y : α} (h : l[i]? = some x) :
    (l.set i y)[i]? = some y := by
  rw [List.getElem?_set_self (getElem_lt h)]

theorem micro_sec {P : Eff → Prop} {o o' : Object} {e : Eff} (h : Micro o e o') (he : P e) {j : Nat} {s : Section}
    (hs : o.sections[j]? = some s) : ∃ s', o'.sections[j]? = some s' ∧ SecRel P j s s' := by
  have upd : ∀ (i : Nat) (t t' : Section), o.sections[i]? = some t → (i = j → SecRel P j t t') →
      ∃ s', (o.sections.set i t')[j]? = some s' ∧ SecRel P j s s' := by
    intro i t t' ht hr
    by_cases hij : i = j
    · subst hij
      rw [ht, Option.some.injEq] at hs
      subst hs
      exact ⟨t', getElem_set_self ht, hr rfl⟩
    · exact ⟨s, by rw [List.getElem?_set_ne hij]; exact hs, SecRel.refl _ _ _⟩
  cases h with
  | @extend i t t' d a off h1 h2 =>
    refine upd i t t' h1 ?_
    rintro rfl
    obtain ⟨hb, _, _, _, rfl⟩ := (appendData_iff t d a off t').1 h2
    exact { segment := rfl, name := rfl, kind := rfl, symbol := fun _ h => h, relocs := StartsWith.refl _
            data := fun _ => ⟨_, List.append_assoc _ _ _⟩
            len := by simp only [List.length_append]; omega
            align := fun _ => Nat.le_max_left _ _
            bss := fun h => by rw [hb] at h; simp at h
            frame := fun hp => absurd he (hp _ rfl) }
  | @reset i t t' d a h1 h2 =>
    refine upd i t t' h1 ?_
    rintro rfl
    obtain ⟨hb, _, hd, rfl⟩ := (setData_iff t d a t').1 h2
    exact { segment := rfl, name := rfl, kind := rfl, symbol := fun _ h => h, relocs := StartsWith.refl _
            data := fun _ => ⟨d, by rw [hd]; rfl⟩
            len := by rw [hd]; simp
            align := fun hp => absurd he hp
            bss := fun h => by rw [hb] at h; simp at h
            frame := fun hp => absurd he (hp _ rfl) }
  | @bss i t t' n a off h1 h2 =>
    refine upd i t t' h1 ?_
    rintro rfl
    obtain ⟨hb, hp, ho, _, rfl⟩ := (appendBss_iff t n a off t').1 h2
    exact { segment := rfl, name := rfl, kind := rfl, symbol := fun _ h => h, relocs := StartsWith.refl _
            data := fun _ => StartsWith.refl _
            len := Nat.le_refl _
            align := fun _ => Nat.le_max_left _ _
            bss := fun _ => by
              have := le_roundUp (n := t.size) hp.pos
              show t.size ≤ off + n
              omega
            frame := fun hp => absurd he (hp _ rfl) }
  | @write i t d h1 h2 h3 =>
    refine upd i t _ h1 ?_
    rintro rfl
    exact { segment := rfl, name := rfl, kind := rfl, symbol := fun _ h => h, relocs := StartsWith.refl _
            data := fun hp => absurd he hp
            len := by rw [h3]; exact Nat.le_refl _
            align := fun _ => Nat.le_refl _
            bss := fun h => Nat.le_refl _
            frame := fun hp => absurd he (hp _ rfl) }
  | @secFlags i t f h1 =>
    refine upd i t _ h1 ?_
    rintro rfl
    exact { segment := rfl, name := rfl, kind := rfl, symbol := fun _ h => h, relocs := StartsWith.refl _
            data := fun hp => StartsWith.refl _
            len := Nat.le_refl _
            align := fun _ => Nat.le_refl _
            bss := fun h => Nat.le_refl _
            frame := fun hp => absurd he (hp _ rfl) }
  | @reloc i t f h1 =>
    refine upd i t _ h1 ?_
    rintro rfl
    exact { segment := rfl, name := rfl, kind := rfl, symbol := fun _ h => h, relocs := ⟨_, rfl⟩
            data := fun hp => StartsWith.refl _
            len := Nat.le_refl _
            align := fun _ => Nat.le_refl _
            bss := fun h => Nat.le_refl _
            frame := fun hp => absurd he (hp _ rfl) }
  | newSection =>
    refine ⟨s, ?_, SecRel.refl _ _ _⟩
    show (o.sections ++ [_])[j]? = some s
    rw [List.getElem?_append_left (getElem_lt hs)]; exact hs
  | newSymbol => exact ⟨s, hs, SecRel.refl _ _ _⟩
  | @secSymbol _ i k t h1 h2 h3 =>
    obtain ⟨rfl, y, _, _, rfl⟩ := sectionSymbol_new h1 h2 h3
    refine upd i t _ h1 ?_
    rintro rfl
    exact { segment := rfl, name := rfl, kind := rfl
            symbol := fun k hk => by rw [h2] at hk; simp at hk
            relocs := StartsWith.refl _
            data := fun hp => StartsWith.refl _
            len := Nat.le_refl _
            align := fun _ => Nat.le_refl _
            bss := fun h => Nat.le_refl _
            frame := fun hp => rfl }
  | symEdit => exact ⟨s, hs, SecRel.refl _ _ _⟩
  | symMut => exact ⟨s, hs, SecRel.refl _ _ _⟩
  | map => exact ⟨s, hs, SecRel.refl _ _ _⟩
  | misc _ _ _ h => exact ⟨s, by rw [h]; exact hs, SecRel.refl _ _ _⟩

theorem Chain.sec {P : Eff → Prop} {o o' : Object} (h : Chain P o o') {j : Nat} {s : Section}
    (hs : o.sections[j]? = some s) : ∃ s', o'.sections[j]? = some s' ∧ SecRel P j s s' := by
  induction h generalizing s with
  | nil => exact ⟨s, hs, SecRel.refl _ _ _⟩
  | cons h1 h2 _ ih =>
    obtain ⟨s1, hs1, r1⟩ := micro_sec h1 h2 hs
    obtain ⟨s2, hs2, r2⟩ := ih hs1
    exact ⟨s2, hs2, r1.trans r2⟩

/-- A relation between the states before and after, proved for one call, extends to histories. -/
theorem run_rel {R : Object → Object → Prop} {Q : Op → Prop} (hr : ∀ o, R o o)
    (ht : ∀ a b c, R a b → R b c → R a c) (hm : ∀ o op o', step o op = some o' → Q op → R o o')
    {ops : List Op} (hq : ∀ op ∈ ops, Q op) {o o' : Object} (h : run o ops = some o') : R o o' := by
  induction ops generalizing o with
  | nil => simp only [run, Option.some.injEq] at h; subst h; exact hr _
  | cons op ops ih =>
    simp only [run] at h
    match hs : step o op with
    | none => rw [hs] at h; simp at h
    | some o1 =>
      rw [hs] at h
      exact ht _ _ _ (hm _ _ _ hs (hq op (List.mem_cons_self ..)))
        (ih (fun x hx => hq x (List.mem_cons_of_mem _ hx)) h)

theorem run_inv {I : Object → Prop} {Q : Op → Prop}
    (hm : ∀ o op o', step o op = some o' → Q op → I o → I o')
    {ops : List Op} (hq : ∀ op ∈ ops, Q op) {o o' : Object} (h : run o ops = some o') : I o → I o' :=
  run_rel (R := fun a b => I a → I b) (fun _ => id) (fun _ _ _ f g x => g (f x)) hm hq h

/-! ## Invariant: section contents -/

/-- Sizes, data and alignment of a section agree. -/
structure SecOk (s : Section) : Prop where
  align : PowTwo s.align
  init : s.kind.isBss = false → s.size = s.data.length
  uninit : s.kind.isBss = true → s.data = []

def AllOk (o : Object) : Prop := ∀ s ∈ o.sections, SecOk s

theorem Spec.PowTwo.max {a b : Nat} (ha : PowTwo a) (hb : PowTwo b) : PowTwo (max a b) := by
  rw [Nat.max_def]; split <;> assumption

theorem mem_of_get {α : Type} {l : List α} {i : Nat} {x : α} (h : l[i]? = some x) : x ∈ l :=
  List.mem_of_getElem? h

theorem micro_ok {o o' : Object} {e : Eff} (h : Micro o e o') (hi : AllOk o) : AllOk o' := by
  have upd : ∀ (i : Nat) (t' : Section), SecOk t' → ∀ s ∈ o.sections.set i t', SecOk s := by
    intro i t' ht s hs
    obtain hs | hs := List.mem_or_eq_of_mem_set hs
    · exact hi s hs
    · rw [hs]; exact ht
  cases h with
  | @extend i t t' d a off h1 h2 =>
    obtain ⟨hb, hp, ho, _, rfl⟩ := (appendData_iff t d a off t').1 h2
    have ht := hi t (mem_of_get h1)
    refine upd i _ ⟨ht.align.max hp, fun _ => ?_, fun h => ?_⟩
    · have := le_roundUp (n := t.data.length) hp.pos
      show off + d.length = (t.data ++ List.replicate (off - t.data.length) 0 ++ d).length
      simp only [List.length_append, List.length_replicate]; omega
    · exact absurd h (by rw [show t.kind.isBss = false from hb]; simp)
  | @reset i t t' d a h1 h2 =>
    obtain ⟨hb, hp, hd, rfl⟩ := (setData_iff t d a t').1 h2
    exact upd i _ ⟨hp, fun _ => rfl, fun h => absurd h (by rw [show t.kind.isBss = false from hb]; simp)⟩
  | @bss i t t' n a off h1 h2 =>
    obtain ⟨hb, hp, ho, _, rfl⟩ := (appendBss_iff t n a off t').1 h2
    have ht := hi t (mem_of_get h1)
    exact upd i _ ⟨ht.align.max hp, fun h => absurd h (by rw [show t.kind.isBss = true from hb]; simp),
      fun _ => ht.uninit hb⟩
  | @write i t d h1 h2 h3 =>
    have ht := hi t (mem_of_get h1)
    exact upd i _ ⟨ht.align, fun h => by rw [h3]; exact ht.init h,
      fun h => absurd h (by rw [show t.kind.isBss = false from h2]; simp)⟩
  | @secFlags i t f h1 =>
    have ht := hi t (mem_of_get h1)
    exact upd i _ ⟨ht.align, ht.init, ht.uninit⟩
  | @reloc i t f h1 =>
    have ht := hi t (mem_of_get h1)
    exact upd i _ ⟨ht.align, ht.init, ht.uninit⟩
  | newSection =>
    intro s hs
    simp only [Object.addSection, List.mem_append, List.mem_singleton] at hs
    obtain hs | hs := hs
    · exact hi s hs
    · subst hs; exact ⟨⟨0, rfl⟩, fun _ => rfl, fun _ => rfl⟩
  | @secSymbol _ i k t h1 h2 h3 =>
    obtain ⟨rfl, y, _, _, rfl⟩ := sectionSymbol_new h1 h2 h3
    have ht := hi t (mem_of_get h1)
    exact upd i _ ⟨ht.align, ht.init, ht.uninit⟩
  | newSymbol => exact hi
  | symEdit => exact hi
  | symMut => exact hi
  | map => exact hi
  | misc _ _ _ h => intro s hs; rw [h] at hs; exact hi s hs

/-! ## Invariant: standard sections -/

/-- The map of standard sections gives the first section with the segment, name and kind. -/
def StdOk (o : Object) : Prop :=
  ∀ ss, o.std ss = o.sections.findIdx? (fun s => (sectionInfo o.format o.arch ss).matches s)

theorem matches_iff (o : Object) (ss : StdSection) (s : Section) :
    (sectionInfo o.format o.arch ss).matches s = true ↔ IsStd o ss s := by
  simp only [SectionInfo.matches, IsStd, Bool.and_eq_true, beq_iff_eq]
  constructor
  · rintro ⟨⟨h1, h2⟩, h3⟩; exact ⟨h1.symm, h2.symm, h3.symm⟩
  · rintro ⟨h1, h2, h3⟩; exact ⟨⟨h1.symm, h2.symm⟩, h3.symm⟩

theorem StdSection.mem_all (ss : StdSection) : ss ∈ StdSection.all := by cases ss <;> decide

theorem findIdx_append {α : Type} (l : List α) (x : α) (p : α → Bool) :
    (l ++ [x]).findIdx? p = match l.findIdx? p with
      | some i => some i
      | none => if p x then some l.length else none := by
  rw [List.findIdx?_append]
  cases h : l.findIdx? p with
  | some i => rfl
  | none =>
    simp only [Option.none_or]
    cases hp : p x <;> simp [List.findIdx?_cons, hp]

theorem foldl_std (f : StdSection → Bool) (id : Nat) (l : List StdSection) (std : StdSection → Option Nat)
    (ss : StdSection) :
    (l.foldl (fun std ss => if (std ss).isNone then if f ss then insert std ss id else std else std) std) ss =
      match std ss with
      | some i => some i
      | none => if ss ∈ l ∧ f ss = true then some id else none := by
  induction l generalizing std with
  | nil => simp; cases std ss <;> rfl
  | cons a l ih =>
    rw [List.foldl_cons, ih]
    by_cases h1 : (std a).isNone = true
    · rw [if_pos h1]
      by_cases h2 : f a = true
      · rw [if_pos h2]
        by_cases h3 : ss = a
        · subst h3
          simp only [insert, if_true]
          rw [Option.isNone_iff_eq_none] at h1
          rw [h1]; simp [h2]
        · simp only [insert, h3, if_false, List.mem_cons, false_or]
      · rw [if_neg h2]
        cases hs : std ss with
        | some i => rfl
        | none =>
          simp only [List.mem_cons]
          by_cases h3 : ss = a
          · subst h3; simp [h2]
          · simp [h3]
    · rw [if_neg h1]
      cases hs : std ss with
      | some i => rfl
      | none =>
        simp only [List.mem_cons]
        by_cases h3 : ss = a
        · subst h3; rw [hs] at h1; simp at h1
        · simp [h3]

theorem findIdx_set {l : List Section} {i : Nat} {t t' : Section} (p : Section → Bool) (h : l[i]? = some t)
    (hp : p t' = p t) : (l.set i t').findIdx? p = l.findIdx? p := by
  induction l generalizing i with
  | nil => simp
  | cons x l ih =>
    cases i with
    | zero =>
      simp only [List.getElem?_cons_zero, Option.some.injEq] at h
      subst h
      simp [List.findIdx?_cons, hp]
    | succ i =>
      simp only [List.getElem?_cons_succ] at h
      simp only [List.set_cons_succ, List.findIdx?_cons, ih h]

theorem micro_std {o o' : Object} {e : Eff} (h : Micro o e o') (hi : StdOk o) : StdOk o' := by
  have upd : ∀ (i : Nat) (t t' : Section), o.sections[i]? = some t → t'.segment = t.segment →
      t'.name = t.name → t'.kind = t.kind → StdOk { o with sections := o.sections.set i t' } := by
    intro i t t' ht h1 h2 h3 ss
    show o.std ss = (o.sections.set i t').findIdx? _
    rw [findIdx_set _ ht]
    · exact hi ss
    · simp only [SectionInfo.matches, h1, h2, h3]
  cases h with
  | @extend i t t' d a off h1 h2 =>
    obtain ⟨hb, hp, ho, _, rfl⟩ := (appendData_iff t d a off t').1 h2
    exact upd i t _ h1 rfl rfl rfl
  | @reset i t t' d a h1 h2 =>
    obtain ⟨hb, hp, hd, rfl⟩ := (setData_iff t d a t').1 h2
    exact upd i t _ h1 rfl rfl rfl
  | @bss i t t' n a off h1 h2 =>
    obtain ⟨hb, hp, ho, _, rfl⟩ := (appendBss_iff t n a off t').1 h2
    exact upd i t _ h1 rfl rfl rfl
  | @write i t d h1 h2 h3 => exact upd i t _ h1 rfl rfl rfl
  | @secFlags i t f h1 => exact upd i t _ h1 rfl rfl rfl
  | @reloc i t f h1 => exact upd i t _ h1 rfl rfl rfl
  | @newSection g n k =>
    intro ss
    simp only [Object.addSection]
    rw [foldl_std (fun ss => (sectionInfo o.format o.arch ss).matches
      { segment := g, name := n, kind := k, size := 0, align := 1, data := [], relocs := [],
        symbol := none, flags := .none }), findIdx_append, hi ss]
    simp only [StdSection.mem_all, true_and]
  | @secSymbol _ i k t h1 h2 h3 =>
    obtain ⟨rfl, y, _, _, rfl⟩ := sectionSymbol_new h1 h2 h3
    exact upd i t _ h1 rfl rfl rfl
  | newSymbol => exact hi
  | symEdit => exact hi
  | symMut => exact hi
  | map => exact hi
  | misc h1 h2 h3 h4 h5 => intro ss; rw [h1, h2, h4, h5]; exact hi ss

/-! ## Invariant: section symbols -/

/-- Section symbols exist and belong to one section each. -/
structure SymOk (o : Object) : Prop where
  lt : ∀ (i k : Nat) (s : Section), o.sections[i]? = some s → s.symbol = some k → k < o.symbols.length
  inj : ∀ (i j k : Nat) (s t : Section), o.sections[i]? = some s → o.sections[j]? = some t →
    s.symbol = some k → t.symbol = some k → i = j

theorem micro_sym {o o' : Object} {e : Eff} (h : Micro o e o') (hi : SymOk o) : SymOk o' := by
  have upd : ∀ (i : Nat) (t t' : Section) (l : List Symbol), o.sections[i]? = some t → t'.symbol = t.symbol →
      l.length = o.symbols.length → SymOk { o with sections := o.sections.set i t', symbols := l } := by
    intro i t t' l ht h1 hl
    have key : ∀ (j : Nat) (s : Section), (o.sections.set i t')[j]? = some s →
        ∃ s0, o.sections[j]? = some s0 ∧ s.symbol = s0.symbol := by
      intro j s hs
      by_cases hij : i = j
      · subst hij
        rw [getElem_set_self ht, Option.some.injEq] at hs
        subst hs; exact ⟨t, ht, h1⟩
      · rw [List.getElem?_set_ne hij] at hs; exact ⟨s, hs, rfl⟩
    constructor
    · intro j k s hs hk
      obtain ⟨s0, h0, h2⟩ := key j s hs
      show k < l.length
      rw [hl]; exact hi.lt j k s0 h0 (by rw [← h2]; exact hk)
    · intro a b k s t hs ht' hk hk'
      obtain ⟨s0, h0, h2⟩ := key a s hs
      obtain ⟨t0, h0', h2'⟩ := key b t ht'
      exact hi.inj a b k s0 t0 h0 h0' (by rw [← h2]; exact hk) (by rw [← h2']; exact hk')
  have grow : ∀ (l : List Symbol), o.symbols.length ≤ l.length → SymOk { o with symbols := l } := by
    intro l hl
    exact ⟨fun j k s hs hk => Nat.lt_of_lt_of_le (hi.lt j k s hs hk) hl, hi.inj⟩
  cases h with
  | @extend i t t' d a off h1 h2 =>
    obtain ⟨hb, hp, ho, _, rfl⟩ := (appendData_iff t d a off t').1 h2
    exact upd i t _ _ h1 rfl rfl
  | @reset i t t' d a h1 h2 =>
    obtain ⟨hb, hp, hd, rfl⟩ := (setData_iff t d a t').1 h2
    exact upd i t _ _ h1 rfl rfl
  | @bss i t t' n a off h1 h2 =>
    obtain ⟨hb, hp, ho, _, rfl⟩ := (appendBss_iff t n a off t').1 h2
    exact upd i t _ _ h1 rfl rfl
  | @write i t d h1 h2 h3 => exact upd i t _ _ h1 rfl rfl
  | @secFlags i t f h1 => exact upd i t _ _ h1 rfl rfl
  | @reloc i t f h1 => exact upd i t _ _ h1 rfl rfl
  | @newSection g n k =>
    have key : ∀ (j : Nat) (s : Section) (k' : Nat), (o.addSection g n k).2.sections[j]? = some s →
        s.symbol = some k' → o.sections[j]? = some s := by
      intro j s k' hs hk
      simp only [Object.addSection] at hs
      rw [List.getElem?_append] at hs
      split at hs
      · exact hs
      · rw [List.getElem?_singleton] at hs
        split at hs
        · simp only [Option.some.injEq] at hs; subst hs; simp at hk
        · simp at hs
    constructor
    · intro j k' s hs hk
      exact hi.lt j k' s (key j s k' hs hk) hk
    · intro a b k' s t hs ht hk hk'
      exact hi.inj a b k' s t (key a s k' hs hk) (key b t k' ht hk') hk hk'
  | @secSymbol _ i k t h1 h2 h3 =>
    obtain ⟨hk0, y, _, _, rfl⟩ := sectionSymbol_new h1 h2 h3
    have key : ∀ (j k' : Nat) (s : Section), (o.sections.set i { t with symbol := some k })[j]? = some s →
        s.symbol = some k' → (j = i ∧ k' = o.symbols.length) ∨ (o.sections[j]? = some s ∧ k' < o.symbols.length) := by
      intro j k' s hs hk
      by_cases hij : i = j
      · subst hij
        rw [getElem_set_self h1, Option.some.injEq] at hs
        subst hs
        simp only [Option.some.injEq] at hk
        exact Or.inl ⟨rfl, by omega⟩
      · rw [List.getElem?_set_ne hij] at hs; exact Or.inr ⟨hs, hi.lt j k' s hs hk⟩
    constructor
    · intro j k' s hs hk
      simp only [List.length_append, List.length_singleton]
      obtain ⟨_, h⟩ | ⟨_, h⟩ := key j k' s hs hk <;> omega
    · intro a b k' s t' hs ht hk hk'
      obtain ⟨h, h'⟩ | ⟨h, h'⟩ := key a k' s hs hk
      · obtain ⟨g, g'⟩ | ⟨g, g'⟩ := key b k' t' ht hk'
        · omega
        · omega
      · obtain ⟨g, g'⟩ | ⟨g, g'⟩ := key b k' t' ht hk'
        · omega
        · exact hi.inj a b k' s t' h g hk hk'
  | newSymbol => exact grow _ (by simp)
  | symEdit => exact grow _ (by simp)
  | symMut => exact grow _ (by simp)
  | map => exact ⟨hi.lt, hi.inj⟩
  | misc h1 h2 h3 h4 h5 h6 =>
    exact ⟨fun j k s hs hk => by rw [h4] at hs; rw [h6]; exact hi.lt j k s hs hk,
      fun a b k s t hs ht => by rw [h4] at hs ht; exact hi.inj a b k s t hs ht⟩

/-- Section symbols are exactly the symbols of kind section. -/
structure KindOk (o : Object) : Prop where
  kind : ∀ (i k : Nat) (s : Section), o.sections[i]? = some s → s.symbol = some k →
    ∃ y, o.symbols[k]? = some y ∧ y.kind = .sectionSym
  sec : ∀ (k : Nat) (y : Symbol), o.symbols[k]? = some y → y.kind = .sectionSym →
    ∃ (i : Nat) (s : Section), o.sections[i]? = some s ∧ s.symbol = some k

theorem micro_kind {o o' : Object} {e : Eff} (h : Micro o e o') (he : ∀ k, e ≠ .symMut k) (hi : KindOk o) :
    KindOk o' := by
  have upd : ∀ (i : Nat) (t t' : Section), o.sections[i]? = some t → t'.symbol = t.symbol →
      KindOk { o with sections := o.sections.set i t' } := by
    intro i t t' ht h1
    constructor
    · intro j k s hs hk
      by_cases hij : i = j
      · subst hij
        rw [show (o.sections.set i t')[i]? = some t' from getElem_set_self ht, Option.some.injEq] at hs
        subst hs; exact hi.kind i k t ht (by rw [← h1]; exact hk)
      · rw [show (o.sections.set i t')[j]? = o.sections[j]? from List.getElem?_set_ne hij] at hs
        exact hi.kind j k s hs hk
    · intro k y hy hk
      obtain ⟨j, s, hs, hsk⟩ := hi.sec k y hy hk
      by_cases hij : i = j
      · subst hij
        rw [ht, Option.some.injEq] at hs
        subst hs
        exact ⟨i, t', getElem_set_self ht, by rw [h1]; exact hsk⟩
      · exact ⟨j, s, by rw [show (o.sections.set i t')[j]? = o.sections[j]? from List.getElem?_set_ne hij]; exact hs, hsk⟩
  cases h with
  | @extend i t t' d a off h1 h2 =>
    obtain ⟨hb, hp, ho, _, rfl⟩ := (appendData_iff t d a off t').1 h2
    exact upd i t _ h1 rfl
  | @reset i t t' d a h1 h2 =>
    obtain ⟨hb, hp, hd, rfl⟩ := (setData_iff t d a t').1 h2
    exact upd i t _ h1 rfl
  | @bss i t t' n a off h1 h2 =>
    obtain ⟨hb, hp, ho, _, rfl⟩ := (appendBss_iff t n a off t').1 h2
    exact upd i t _ h1 rfl
  | @write i t d h1 h2 h3 => exact upd i t _ h1 rfl
  | @secFlags i t f h1 => exact upd i t _ h1 rfl
  | @reloc i t f h1 => exact upd i t _ h1 rfl
  | @newSection g n k =>
    constructor
    · intro j k' s hs hk
      simp only [Object.addSection] at hs
      rw [List.getElem?_append] at hs
      split at hs
      · exact hi.kind j k' s hs hk
      · rw [List.getElem?_singleton] at hs
        split at hs
        · simp only [Option.some.injEq] at hs; subst hs; simp at hk
        · simp at hs
    · intro k' y hy hk
      obtain ⟨j, s, hs, hsk⟩ := hi.sec k' y hy hk
      refine ⟨j, s, ?_, hsk⟩
      show (o.sections ++ [_])[j]? = some s
      rw [List.getElem?_append_left (getElem_lt hs)]; exact hs
  | @secSymbol _ i k t h1 h2 h3 =>
    obtain ⟨hk0, y, hy1, _, rfl⟩ := sectionSymbol_new h1 h2 h3
    constructor
    · intro j k' s hs hk
      show ∃ z, (o.symbols ++ [y])[k']? = some z ∧ _
      by_cases hij : i = j
      · subst hij
        rw [show (o.sections.set i { t with symbol := some k })[i]? = _ from getElem_set_self h1,
          Option.some.injEq] at hs
        subst hs
        simp only [Option.some.injEq] at hk
        subst hk hk0
        exact ⟨y, by simp, hy1⟩
      · rw [show (o.sections.set i { t with symbol := some k })[j]? = o.sections[j]? from
          List.getElem?_set_ne hij] at hs
        obtain ⟨z, hz, hz'⟩ := hi.kind j k' s hs hk
        exact ⟨z, by rw [List.getElem?_append_left (getElem_lt hz)]; exact hz, hz'⟩
    · intro k' z hz hz'
      have hz : (o.symbols ++ [y])[k']? = some z := hz
      show ∃ (j : Nat) (s : Section), (o.sections.set i { t with symbol := some k })[j]? = some s ∧ _
      rw [List.getElem?_append] at hz
      split at hz
      · obtain ⟨j, s, hs, hsk⟩ := hi.sec k' z hz hz'
        refine ⟨j, s, ?_, hsk⟩
        rw [List.getElem?_set_ne]
        · exact hs
        · rintro rfl; rw [h1, Option.some.injEq] at hs; subst hs; rw [h2] at hsk; simp at hsk
      · refine ⟨i, _, getElem_set_self h1, ?_⟩
        rw [List.getElem?_singleton] at hz
        split at hz
        · simp only [Option.some.injEq]; omega
        · simp at hz
  | @newSymbol y hy =>
    constructor
    · intro j k' s hs hk
      obtain ⟨z, hz, hz'⟩ := hi.kind j k' s hs hk
      refine ⟨z, ?_, hz'⟩
      show (o.symbols ++ [y])[k']? = some z
      rw [List.getElem?_append_left (getElem_lt hz)]; exact hz
    · intro k' z hz hz'
      have hz : (o.symbols ++ [y])[k']? = some z := hz
      rw [List.getElem?_append] at hz
      split at hz
      · exact hi.sec k' z hz hz'
      · rw [List.getElem?_singleton] at hz
        split at hz
        · simp only [Option.some.injEq] at hz; subst hz; exact absurd hz' hy
        · simp at hz
  | @symEdit k y y' h1 _ h2 =>
    constructor
    · intro j k' s hs hk
      obtain ⟨z, hz, hz'⟩ := hi.kind j k' s hs hk
      show ∃ z, (o.symbols.set k y')[k']? = some z ∧ _
      by_cases hkk : k = k'
      · subst hkk
        rw [h1, Option.some.injEq] at hz
        subst hz
        exact ⟨y', getElem_set_self h1, by rw [h2]; exact hz'⟩
      · exact ⟨z, by rw [List.getElem?_set_ne hkk]; exact hz, hz'⟩
    · intro k' z hz hz'
      have hz : (o.symbols.set k y')[k']? = some z := hz
      by_cases hkk : k = k'
      · subst hkk
        rw [getElem_set_self h1, Option.some.injEq] at hz
        subst hz
        exact hi.sec k y h1 (by rw [← h2]; exact hz')
      · rw [List.getElem?_set_ne hkk] at hz; exact hi.sec k' z hz hz'
  | symMut => exact absurd rfl (he _)
  | map => exact ⟨hi.kind, hi.sec⟩
  | misc h1 h2 h3 h4 h5 h6 =>
    exact ⟨fun j k s hs hk => by rw [h4] at hs; rw [h6]; exact hi.kind j k s hs hk,
      fun k y hy hk => by rw [h6] at hy; rw [h4]; exact hi.sec k y hy hk⟩

/-! ## Symbols over histories -/

/-- How symbol `k` may evolve. -/
structure SymRel (P : Eff → Prop) (k : Nat) (y y' : Symbol) : Prop where
  name : ¬ P (.symMut k) → y'.name = y.name
  kind : ¬ P (.symMut k) → y'.kind = y.kind
  scope : ¬ P (.symMut k) → y'.scope = y.scope
  weak : ¬ P (.symMut k) → y'.weak = y.weak

theorem SymRel.refl (P : Eff → Prop) (k : Nat) (y : Symbol) : SymRel P k y y :=
  ⟨fun _ => rfl, fun _ => rfl, fun _ => rfl, fun _ => rfl⟩

theorem SymRel.trans {P : Eff → Prop} {k : Nat} {a b c : Symbol} (h : SymRel P k a b) (h' : SymRel P k b c) :
    SymRel P k a c :=
  ⟨fun hp => by rw [h'.name hp, h.name hp], fun hp => by rw [h'.kind hp, h.kind hp],
    fun hp => by rw [h'.scope hp, h.scope hp], fun hp => by rw [h'.weak hp, h.weak hp]⟩

theorem micro_symbol {P : Eff → Prop} {o o' : Object} {e : Eff} (h : Micro o e o') (he : P e) {k : Nat}
    {y : Symbol} (hy : o.symbols[k]? = some y) : ∃ y', o'.symbols[k]? = some y' ∧ SymRel P k y y' := by
  have app : ∀ z : Symbol, (o.symbols ++ [z])[k]? = some y := by
    intro z; rw [List.getElem?_append_left (getElem_lt hy)]; exact hy
  cases h with
  | newSymbol => exact ⟨y, app _, SymRel.refl _ _ _⟩
  | secSymbol h1 h2 h3 =>
    obtain ⟨_, z, _, _, rfl⟩ := sectionSymbol_new h1 h2 h3
    exact ⟨y, app _, SymRel.refl _ _ _⟩
  | @symEdit k1 z z' h1 h2 h3 h4 h5 =>
    show ∃ y', (o.symbols.set k1 z')[k]? = some y' ∧ _
    by_cases hk : k1 = k
    · subst hk
      rw [h1, Option.some.injEq] at hy
      subst hy
      exact ⟨z', getElem_set_self h1, fun _ => h2, fun _ => h3, fun _ => h4, fun _ => h5⟩
    · exact ⟨y, by rw [List.getElem?_set_ne hk]; exact hy, SymRel.refl _ _ _⟩
  | @symMut k1 z z' h1 =>
    show ∃ y', (o.symbols.set k1 z')[k]? = some y' ∧ _
    by_cases hk : k1 = k
    · subst hk
      exact ⟨z', getElem_set_self h1, fun h => absurd he h, fun h => absurd he h, fun h => absurd he h,
        fun h => absurd he h⟩
    · exact ⟨y, by rw [List.getElem?_set_ne hk]; exact hy, SymRel.refl _ _ _⟩
  | misc _ _ _ _ _ h => exact ⟨y, by rw [h]; exact hy, SymRel.refl _ _ _⟩
  | _ => exact ⟨y, hy, SymRel.refl _ _ _⟩

theorem Chain.symbol {P : Eff → Prop} {o o' : Object} (h : Chain P o o') {k : Nat} {y : Symbol}
    (hy : o.symbols[k]? = some y) : ∃ y', o'.symbols[k]? = some y' ∧ SymRel P k y y' := by
  induction h generalizing y with
  | nil => exact ⟨y, hy, SymRel.refl _ _ _⟩
  | cons h1 h2 _ ih =>
    obtain ⟨y1, hy1, r1⟩ := micro_symbol h1 h2 hy
    obtain ⟨y2, hy2, r2⟩ := ih hy1
    exact ⟨y2, hy2, r1.trans r2⟩

theorem micro_map {o o' : Object} {e : Eff} (h : Micro o e o') (n : List UInt8) (hn : e ≠ .map n) :
    o'.symMap n = o.symMap n := by
  cases h with
  | secSymbol h1 h2 h3 =>
    obtain ⟨_, z, _, _, rfl⟩ := sectionSymbol_new h1 h2 h3
    rfl
  | @map m k h1 =>
    show insert o.symMap m k n = _
    unfold insert
    rw [if_neg (by rintro rfl; exact hn rfl)]
  | misc _ _ _ _ _ _ h => rw [h]
  | _ => rfl

theorem Chain.map_eq {P : Eff → Prop} {o o' : Object} (h : Chain P o o') (n : List UInt8)
    (hp : ¬ P (.map n)) : o'.symMap n = o.symMap n := by
  induction h with
  | nil => rfl
  | cons h1 h2 _ ih => rw [ih, micro_map h1 n (by rintro rfl; exact hp h2)]

end Obj.W
