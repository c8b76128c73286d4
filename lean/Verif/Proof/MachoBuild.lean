import Verif.Spec.MachoBuild
import Verif.Proof.Build
import Verif.Proof.BuildW1

/-! Deletion in a Mach-O builder. -/

namespace Obj.MachoB
open Obj Obj.MachoR Obj.Spec.MachoB
open Obj.BuildW (foldR mapR put)

/-! ## Loops that can panic -/

theorem retain_ok {α : Type} {p : α → Res Bool} (q : α → Bool) (l : List α) (h : ∀ x ∈ l, p x = .ok (q x)) : retain p l = .ok (l.filter q) := by
  induction l with
  | nil => rfl
  | cons x xs ih =>
    rw [retain, h x List.mem_cons_self, Res.bind, ih (fun y hy => h y (List.mem_cons_of_mem _ hy)), Res.bind, List.filter_cons]
    

theorem retain_panic {α : Type} {p : α → Res Bool} (l : List α) (h : ∀ x ∈ l, p x ≠ .err) (hp : ∃ x ∈ l, p x = .panic) : retain p l = .panic := by
  induction l with
  | nil => obtain ⟨x, hx, _⟩ := hp; cases hx
  | cons x xs ih =>
    rw [retain]
    cases hx : p x with
    | err => exact absurd hx (h x List.mem_cons_self)
    | panic => rfl
    | ok k =>
      rw [Res.bind, ih (fun y hy => h y (List.mem_cons_of_mem _ hy))]
      · rfl
      · obtain ⟨y, hy, hyp⟩ := hp
        rcases List.mem_cons.1 hy with rfl | hy
        · rw [hx] at hyp; cases hyp
        · exact ⟨y, hy, hyp⟩

theorem mapR_ok {α β : Type} {f : α → Res β} (g : α → β) (l : List α) (h : ∀ x ∈ l, f x = .ok (g x)) : mapR f l = .ok (l.map g) := by
  induction l with
  | nil => rfl
  | cons x xs ih =>
    rw [mapR, h x List.mem_cons_self, Res.bind, ih (fun y hy => h y (List.mem_cons_of_mem _ hy))]; rfl

theorem mapR_panic {α β : Type} {f : α → Res β} (l : List α) (h : ∀ x ∈ l, f x ≠ .err) (hp : ∃ x ∈ l, f x = .panic) : mapR f l = .panic := by
  induction l with
  | nil => obtain ⟨x, hx, _⟩ := hp; cases hx
  | cons x xs ih =>
    rw [mapR]
    cases hx : f x with
    | err => exact absurd hx (h x List.mem_cons_self)
    | panic => rfl
    | ok k =>
      rw [Res.bind, ih (fun y hy => h y (List.mem_cons_of_mem _ hy))]
      · rfl
      · obtain ⟨y, hy, hyp⟩ := hp
        rcases List.mem_cons.1 hy with rfl | hy
        · rw [hx] at hyp; cases hyp
        · exact ⟨y, hy, hyp⟩

theorem fetch_lt {α : Type} {t : List α} {i : Nat} (h : i < t.length) : fetch t i = .ok t[i] := by
  rw [fetch, List.getElem?_eq_getElem h]

theorem fetch_ge {α : Type} {t : List α} {i : Nat} (h : ¬ i < t.length) : fetch t i = .panic := by
  rw [fetch, List.getElem?_eq_none (by omega)]

theorem fetch_not_err {α : Type} (t : List α) (i : Nat) : fetch t i ≠ .err := by
  rw [fetch]; split <;> simp

theorem fetch_iff {α : Type} {t : List α} {i : Nat} {x : α} : fetch t i = .ok x ↔ t[i]? = some x := by
  rw [fetch]
  cases t[i]? <;> simp

/-- The outcome of a stage that succeeds with `x` if `P` holds, and otherwise panics. -/
def OkIf {α : Type} (P : Prop) (x : α) (r : Res α) : Prop := (P → r = .ok x) ∧ (¬ P → r = .panic)

theorem retain_okIf {α : Type} {p : α → Res Bool} {P : α → Prop} (q : α → Bool) (l : List α) (h : ∀ x ∈ l, OkIf (P x) (q x) (p x)) :
    OkIf (∀ x ∈ l, P x) (l.filter q) (retain p l) := by
  refine ⟨fun hP => retain_ok q l (fun x hx => (h x hx).1 (hP x hx)), fun hP => retain_panic l (fun x hx => ?_) ?_⟩
  · by_cases hp : P x
    · rw [(h x hx).1 hp]; simp
    · rw [(h x hx).2 hp]; simp
  · refine Classical.byContradiction fun hc => hP fun x hx => Classical.byContradiction fun hp => hc ⟨x, hx, (h x hx).2 hp⟩

theorem mapR_okIf {α β : Type} {f : α → Res β} {P : α → Prop} (g : α → β) (l : List α) (h : ∀ x ∈ l, OkIf (P x) (g x) (f x)) :
    OkIf (∀ x ∈ l, P x) (l.map g) (mapR f l) := by
  refine ⟨fun hP => mapR_ok g l (fun x hx => (h x hx).1 (hP x hx)), fun hP => mapR_panic l (fun x hx => ?_) ?_⟩
  · by_cases hp : P x
    · rw [(h x hx).1 hp]; simp
    · rw [(h x hx).2 hp]; simp
  · refine Classical.byContradiction fun hc => hP fun x hx => Classical.byContradiction fun hp => hc ⟨x, hx, (h x hx).2 hp⟩

theorem OkIf.bind {α β : Type} {P Q : Prop} {x : α} {y : β} {r : Res α} {f : α → Res β} (h : OkIf P x r) (hf : OkIf Q y (f x)) :
    OkIf (P ∧ Q) y (r.bind f) := by
  refine ⟨fun hp => ?_, fun hp => ?_⟩
  · rw [h.1 hp.1]; exact hf.1 hp.2
  · by_cases hP : P
    · rw [h.1 hP]; exact hf.2 (fun hQ => hp ⟨hP, hQ⟩)
    · rw [h.2 hP]; rfl

theorem OkIf.map {α β : Type} {P : Prop} {x : α} {r : Res α} (h : OkIf P x r) (f : α → β) : OkIf P (f x) (r.bind fun a => .ok (f a)) := by
  refine ⟨fun hp => ?_, fun hp => ?_⟩
  · rw [h.1 hp]; rfl
  · rw [h.2 hp]; rfl

theorem OkIf.congr {α : Type} {P Q : Prop} {x y : α} {r : Res α} (h : OkIf P x r) (hq : P ↔ Q) (hx : P → x = y) : OkIf Q y r := by
  refine ⟨fun hp => ?_, fun hp => ?_⟩
  · rw [h.1 (hq.2 hp), hx (hq.2 hp)]
  · exact h.2 (fun hc => hp (hq.1 hc))

theorem okIf_true {α : Type} (x : α) : OkIf True x (.ok x) := ⟨fun _ => rfl, fun h => absurd trivial h⟩

theorem fetch_okIf {α β : Type} (t : List α) (i : Nat) (f : α → β) (y : β) (h : ∀ x, t[i]? = some x → f x = y) :
    OkIf (i < t.length) y ((fetch t i).bind fun x => .ok (f x)) := by
  refine ⟨fun hi => ?_, fun hi => ?_⟩
  · rw [fetch_lt hi, Res.bind, h _ (List.getElem?_eq_getElem hi)]
  · rw [fetch_ge hi]; rfl

/-- An `update` whose items succeed under a condition. -/
theorem update_okIf {α : Type} [Build.Item α] {f : α → Res α} {P : α → Prop} (g : α → α) (l : List α)
    (h : ∀ x ∈ l, Build.Item.deleted x = false → OkIf (P x) (g x) (f x)) :
    OkIf (∀ x ∈ l, Build.Item.deleted x = false → P x) (l.map fun x => if Build.Item.deleted x then x else g x) (update f l) := by
  refine mapR_okIf _ l fun x hx => ?_
  cases hd : Build.Item.deleted x with
  | true => exact ⟨fun _ => rfl, fun hc => absurd (fun he => by cases he) hc⟩
  | false =>
    have := h x hx hd
    exact ⟨fun hp => this.1 (hp rfl), fun hp => this.2 (fun hP => hp (fun _ => hP))⟩

theorem secGone_eq {b : Builder} {i : Nat} {s : Sec} (h : b.sections[i]? = some s) : secGone b i = s.delete := by rw [secGone, h]

theorem segments_ok (b : Builder) : OkIf (∀ g ∈ b.segments, g.delete = false → ∀ i ∈ g.sections, i < b.sections.length)
    { b with segments := b.segments.map (segAfter b) } (deleteSegments b) := by
  refine ((update_okIf (P := fun g : Segm => ∀ i ∈ g.sections, i < b.sections.length) (segAfter b) b.segments fun g hg hd => ?_).map
    (fun gs => { b with segments := gs })).congr Iff.rfl fun _ => ?_
  · have hd : g.delete = false := hd
    by_cases he : g.sections = []
    · rw [if_pos he, segAfter, if_pos (Or.inr he)]
      exact ⟨fun _ => rfl, fun hc => absurd (fun i hi => by rw [he] at hi; cases hi) hc⟩
    · rw [if_neg he, segAfter, if_neg (by rw [hd]; simpa using he)]
      refine ((retain_okIf (P := fun i => i < b.sections.length) (fun i => !secGone b i) g.sections fun i hi =>
        fetch_okIf b.sections i _ _ fun s hs => by rw [secGone_eq hs]).map _).congr Iff.rfl fun _ => ?_
      have : (decide (g.sections.filter (fun i => !secGone b i) = [])) = g.sections.all fun i => secGone b i := by
        rw [Bool.eq_iff_iff, decide_eq_true_iff, List.filter_eq_nil_iff, List.all_eq_true]
        simp
      rw [this]
  · congr 1
    refine List.map_congr_left fun g _ => ?_
    split
    · next h => have h : g.delete = true := h; rw [segAfter, if_pos (Or.inl h)]
    · rfl

theorem symbols_ok (b : Builder) : OkIf (∀ y ∈ b.symbols, y.delete = false → ∀ i, y.sect = some i → i < b.sections.length)
    { b with symbols := b.symbols.map (symAfter b) } (deleteSymbols b) := by
  refine ((update_okIf (P := fun y : Sym => ∀ i, y.sect = some i → i < b.sections.length) (symAfter b) b.symbols fun y hy hd => ?_).map
    (fun ys => { b with symbols := ys })).congr Iff.rfl fun _ => ?_
  · have hd : y.delete = false := hd
    cases hs : y.sect with
    | none =>
      refine ⟨fun _ => ?_, fun hc => absurd (fun i hi => by cases hi) hc⟩
      rw [symAfter, hs, sectGone]; cases y; simp_all
    | some k =>
      refine (fetch_okIf b.sections k (fun s => if s.delete then { y with delete := true, sect := some k } else y) (symAfter b y) fun s hk => ?_).congr
        (Q := ∀ i, some k = some i → i < b.sections.length) (by constructor; (· intro h i e; injection e with e; omega); exact fun h => h k rfl) fun _ => rfl
      rw [symAfter, hs, sectGone, secGone_eq hk]
      cases y; cases hsd : s.delete <;> simp_all
  · congr 1
    refine List.map_congr_left fun y _ => ?_
    split
    · next h => have h : y.delete = true := h; rw [symAfter]; cases y; simp_all
    · rfl

/-- The relocation refers to an item. -/
def RelIn (b : Builder) (r : Rel) : Prop :=
  (∀ i, r.target = .symbol i → i < b.symbols.length) ∧ (∀ i, r.target = .section_ i → i < (b.sections.filter fun s => !s.delete).length)

/-- A relocation is kept if its symbol is. -/
def keptIn (b : Builder) (r : Rel) : Bool :=
  match r.target with
  | .symbol i => (match b.symbols[i]? with | some y => !y.delete | none => true)
  | .section_ _ => true

theorem relocs_ok (b : Builder) : OkIf (∀ s ∈ b.sections, s.delete = false → ∀ r ∈ s.relocs, RelIn b r)
    { b with sections := b.sections.map fun s => if s.delete then s else { s with relocs := s.relocs.filter (keptIn b) } } (deleteRelocs b) := by
  refine ((update_okIf (P := fun s : Sec => ∀ r ∈ s.relocs, RelIn b r) (fun s => { s with relocs := s.relocs.filter (keptIn b) }) b.sections
    fun s hs hd => ?_).map (fun ys => { b with sections := ys })).congr Iff.rfl fun _ => rfl
  refine (retain_okIf (P := RelIn b) (keptIn b) s.relocs fun r hr => ?_).map _
  cases ht : r.target with
  | symbol i =>
    refine (fetch_okIf b.symbols i _ _ fun y hy => ?_).congr (by rw [RelIn, ht]; simp) fun _ => rfl
    rw [keptIn, ht]; dsimp only; rw [hy]
  | section_ i =>
    refine (fetch_okIf _ i _ _ fun d hd => ?_).congr (by rw [RelIn, ht, Build.iter_eq, List.length_map]; simp; rfl) fun _ => rfl
    rw [List.getElem?_map, Build.iter_eq] at hd
    cases hg : (b.sections.filter fun x => !Build.Item.deleted x)[i]? with
    | none => rw [hg] at hd; cases hd
    | some t =>
      rw [hg] at hd
      have := (List.mem_filter.1 (List.mem_of_getElem? hg)).2
      have h2 : (!t.delete) = true := this
      injection hd with hd
      rw [← hd, h2, keptIn, ht]

/-- The command refers to an item. -/
def CmdIn (b : Builder) (k : Cmd) : Prop := (∀ i, k = .segment i → i < b.segments.length) ∧ (∀ i, k = .dylib i → i < b.dylibs.length)

/-- A command is kept if its segment or library is. -/
def cmdKeptIn (b : Builder) : Cmd → Bool
  | .segment i => (match b.segments[i]? with | some g => !g.delete | none => true)
  | .dylib i => (match b.dylibs[i]? with | some g => !g.delete | none => true)
  | _ => true

theorem commands_ok (b : Builder) : OkIf (∀ k ∈ b.commands, CmdIn b k) { b with commands := b.commands.filter (cmdKeptIn b) } (deleteCommands b) := by
  refine (retain_okIf (P := CmdIn b) (cmdKeptIn b) b.commands fun k hk => ?_).map _
  cases k with
  | segment i =>
    refine (fetch_okIf b.segments i _ _ fun y hy => ?_).congr (by rw [CmdIn]; simp) fun _ => rfl
    rw [cmdKeptIn, hy]
  | dylib i =>
    refine (fetch_okIf b.dylibs i _ _ fun y hy => ?_).congr (by rw [CmdIn]; simp) fun _ => rfl
    rw [cmdKeptIn, hy]
  | _ => exact (okIf_true _).congr (by rw [CmdIn]; simp) fun _ => rfl

theorem deleteOrphans_ok (b : Builder) : OkIf (InRange b) (cleaned b) (deleteOrphans b) := by
  have h1 := segments_ok b
  have h2 := symbols_ok { b with segments := b.segments.map (segAfter b) }
  have h3 := relocs_ok { b with segments := b.segments.map (segAfter b), symbols := b.symbols.map (symAfter b) }
  have h4 := commands_ok { b with segments := b.segments.map (segAfter b), symbols := b.symbols.map (symAfter b),
                                  sections := b.sections.map (secAfter b) }
  have hk : ∀ r : Rel, keptIn { b with segments := b.segments.map (segAfter b), symbols := b.symbols.map (symAfter b) } r = relKept b r := by
    intro r
    rw [keptIn, relKept]
    cases r.target with
    | section_ i => rfl
    | symbol i =>
      dsimp only
      rw [symGone, List.getElem?_map]
      cases b.symbols[i]? <;> rfl
  have hsec : (b.sections.map fun s => if s.delete then s else { s with relocs := s.relocs.filter (keptIn { b with segments := b.segments.map (segAfter b), symbols := b.symbols.map (symAfter b) }) }) = b.sections.map (secAfter b) := by
    refine List.map_congr_left fun s _ => ?_
    rw [secAfter]
    congr 3
    exact funext hk
  have hc : ∀ k, cmdKeptIn { b with segments := b.segments.map (segAfter b), symbols := b.symbols.map (symAfter b), sections := b.sections.map (secAfter b) } k = cmdKept b k := by
    intro k
    cases k with
    | segment i =>
      rw [cmdKeptIn, cmdKept, segGone]
      dsimp only
      rw [List.getElem?_map]
      cases b.segments[i]? <;> rfl
    | dylib i =>
      rw [cmdKeptIn, cmdKept, libGone]
      dsimp only
      cases b.dylibs[i]? <;> rfl
    | _ => rfl
  dsimp only at h3
  rw [hsec] at h3
  refine (h1.bind (h2.bind (h3.bind h4))).congr ?_ fun _ => ?_
  · constructor
    · rintro ⟨a, b', c, d⟩
      refine ⟨a, b', fun s hs hd r hr i hi => (by have := (c s hs hd r hr).1 i hi; dsimp only at this; rwa [List.length_map] at this), fun s hs hd r hr => ((c s hs hd r hr).2), fun i hi => ?_, fun i hi => ?_⟩
      · rw [← List.length_map (segAfter b)]; exact (d _ hi).1 i rfl
      · exact (d _ hi).2 i rfl
    · intro h
      refine ⟨h.segments, h.symbols, fun s hs hd r hr => ⟨?_, h.relSections s hs hd r hr⟩, fun k hk => ⟨fun i e => ?_, fun i e => ?_⟩⟩
      · intro i hi; dsimp only; rw [List.length_map]; exact h.relSymbols s hs hd r hr i hi
      · dsimp only; rw [List.length_map]; exact h.commands i (e ▸ hk)
      · exact h.libraries i (e ▸ hk)
  · rw [cleaned]
    congr 1
    exact congrArg (fun p => b.commands.filter p) (funext hc)

/-! ## After deletion -/

theorem secAfter_delete (b : Builder) (s : Sec) : (secAfter b s).delete = s.delete := by rw [secAfter]; split <;> rfl

theorem secGone_cleaned (b : Builder) (i : Nat) : secGone (cleaned b) i = secGone b i := by
  rw [secGone, secGone, cleaned]
  dsimp only
  rw [List.getElem?_map]
  cases b.sections[i]? with
  | none => rfl
  | some s => exact secAfter_delete b s

theorem segAfter_live {b : Builder} {g : Segm} (h : (segAfter b g).delete = false) : g.delete = false ∧ ∀ i ∈ (segAfter b g).sections, secGone b i = false ∧ i ∈ g.sections := by
  rw [segAfter] at h ⊢
  split at h
  · next hc =>
    rw [if_pos hc]
    rcases hc with hc | hc
    · rw [hc] at h; cases h
    · exact ⟨h, fun i hi => by rw [hc] at hi; cases hi⟩
  · next hc =>
    rw [if_neg hc]
    refine ⟨by cases hg : g.delete <;> simp_all, fun i hi => ?_⟩
    have := List.mem_filter.1 hi
    exact ⟨by simpa using this.2, this.1⟩

theorem cleaned_noOrphans (b : Builder) : NoOrphans (cleaned b) := by
  refine ⟨fun g hg hd i hi s hs => ?_, fun y hy hd i s hi hs => ?_, fun s hs hd r hr i y ht hy => ?_, fun i g hi hg => ?_, fun i d hi hd => ?_⟩
  · obtain ⟨g0, h0, rfl⟩ := List.mem_map.1 hg
    have := ((segAfter_live hd).2 i hi).1
    rwa [← secGone_cleaned, secGone_eq hs] at this
  · obtain ⟨y0, h0, rfl⟩ := List.mem_map.1 hy
    have h1 : (symAfter b y0).delete = false := hd
    have h2 : y0.sect = some i := hi
    rw [symAfter, h2] at h1
    dsimp only at h1
    rw [sectGone, Bool.or_eq_false_iff] at h1
    have := h1.2
    rwa [← secGone_cleaned, secGone_eq hs] at this
  · obtain ⟨s0, h0, rfl⟩ := List.mem_map.1 hs
    have hd0 : s0.delete = false := by rwa [secAfter_delete] at hd
    rw [secAfter, if_neg (by simp [hd0])] at hr
    have h2 := (List.mem_filter.1 hr).2
    rw [relKept, ht] at h2
    dsimp only at h2
    rw [cleaned] at hy
    dsimp only at hy
    rw [List.getElem?_map] at hy
    cases h3 : b.symbols[i]? with
    | none => rw [h3] at hy; cases hy
    | some y0 =>
      rw [h3] at hy
      injection hy with hy
      rw [symGone, h3] at h2
      rw [← hy, symAfter]
      simpa using h2
  · have h2 := (List.mem_filter.1 hi).2
    rw [cmdKept] at h2
    rw [cleaned] at hg
    dsimp only at hg
    rw [List.getElem?_map] at hg
    cases h3 : b.segments[i]? with
    | none => rw [h3] at hg; cases hg
    | some g0 =>
      rw [h3] at hg
      injection hg with hg
      rw [segGone, h3] at h2
      rw [← hg]
      simpa using h2
  · have h2 := (List.mem_filter.1 hi).2
    have hd : b.dylibs[i]? = some d := hd
    rw [cmdKept, libGone, hd] at h2
    simpa using h2

theorem noOrphans_cleaned {b : Builder} (h : NoOrphans b) : cleaned b = b := by
  have hsec : ∀ (l : List Nat), (∀ i ∈ l, ∀ s, b.sections[i]? = some s → s.delete = false) → ∀ i ∈ l, secGone b i = false := by
    intro l hl i hi
    rw [secGone]
    cases hs : b.sections[i]? with
    | none => rfl
    | some s => exact hl i hi s hs
  have hseg : ∀ g ∈ b.segments, segAfter b g = g := by
    intro g hg
    rw [segAfter]
    split
    · rfl
    · next hc =>
      have hd : g.delete = false := by cases hg : g.delete <;> simp_all
      have hn : g.sections ≠ [] := fun e => hc (Or.inr e)
      have h1 := hsec g.sections (h.segments g hg hd)
      have hf : (g.sections.filter fun i => !secGone b i) = g.sections := List.filter_eq_self.2 fun i hi => by rw [h1 i hi]; rfl
      have ha : (g.sections.all fun i => secGone b i) = false := by
        obtain ⟨i, hi⟩ := List.exists_mem_of_ne_nil _ hn
        rw [List.all_eq_false]
        exact ⟨i, hi, by rw [h1 i hi]; simp⟩
      rw [hf, ha]
      cases g
      simp_all
  have hgone : ∀ y ∈ b.symbols, y.delete = false → sectGone b y.sect = false := by
    intro y hy hd
    cases hs : y.sect with
    | none => rfl
    | some k =>
      exact hsec [k] (fun i hi s he => by rw [List.mem_singleton.1 hi] at he; exact h.symbols y hy hd k s hs he) k List.mem_cons_self
  have hsym : ∀ y ∈ b.symbols, symAfter b y = y := by
    intro y hy
    rw [symAfter]
    cases hd : y.delete with
    | true => cases y; simp_all
    | false =>
      rw [hgone y hy hd]
      cases y; simp_all
  have hs : ∀ s ∈ b.sections, secAfter b s = s := by
    intro s hs
    rw [secAfter]
    cases hd : s.delete with
    | true => rfl
    | false =>
      have : s.relocs.filter (relKept b) = s.relocs := by
        refine List.filter_eq_self.2 fun r hr => ?_
        rw [relKept]
        cases ht : r.target with
        | section_ i => rfl
        | symbol i =>
          dsimp only
          rw [symGone]
          cases hy : b.symbols[i]? with
          | none => rfl
          | some y =>
            have := h.relocs s hs hd r hr i y ht hy
            dsimp only
            rw [this, hgone y (List.mem_of_getElem? hy) this]; rfl
      rw [this]
      cases s; simp_all
  have hcmd : b.commands.filter (cmdKept b) = b.commands := by
    refine List.filter_eq_self.2 fun k hk => ?_
    cases k with
    | segment i =>
      rw [cmdKept, segGone]
      cases hg : b.segments[i]? with
      | none => rfl
      | some g =>
        dsimp only
        rw [hseg g (List.mem_of_getElem? hg), h.commands i g hk hg]; rfl
    | dylib i =>
      rw [cmdKept, libGone]
      cases hg : b.dylibs[i]? with
      | none => rfl
      | some g =>
        dsimp only
        rw [h.libraries i g hk hg]; rfl
    | _ => rfl
  rw [cleaned, hcmd]
  have m1 : b.segments.map (segAfter b) = b.segments := by rw [List.map_congr_left hseg, List.map_id']
  have m2 : b.symbols.map (symAfter b) = b.symbols := by rw [List.map_congr_left hsym, List.map_id']
  have m3 : b.sections.map (secAfter b) = b.sections := by rw [List.map_congr_left hs, List.map_id']
  rw [m1, m2, m3]

theorem inRange_cleaned {b : Builder} (h : InRange b) : InRange (cleaned b) := by
  have hl : (cleaned b).sections.length = b.sections.length := List.length_map ..
  have hy : (cleaned b).symbols.length = b.symbols.length := List.length_map ..
  have hlive : ((cleaned b).sections.filter fun s => !s.delete).length = (b.sections.filter fun s => !s.delete).length := by
    show ((b.sections.map (secAfter b)).filter fun s => !s.delete).length = _
    rw [List.filter_map, List.length_map]
    congr 1
    refine List.filter_congr fun s _ => ?_
    show (!(secAfter b s).delete) = _
    rw [secAfter_delete]
  have hrel : ∀ s ∈ (cleaned b).sections, s.delete = false → ∃ s0 ∈ b.sections, s0.delete = false ∧ ∀ r ∈ s.relocs, r ∈ s0.relocs := by
    intro s hs hd
    obtain ⟨s0, h0, rfl⟩ := List.mem_map.1 hs
    have hd0 : s0.delete = false := by rwa [secAfter_delete] at hd
    refine ⟨s0, h0, hd0, fun r hr => ?_⟩
    rw [secAfter, if_neg (by simp [hd0])] at hr
    exact (List.mem_filter.1 hr).1
  refine ⟨fun g hg hd i hi => ?_, fun y hym hd i hi => ?_, fun s hs hd r hr i ht => ?_, fun s hs hd r hr i ht => ?_, fun i hi => ?_, fun i hi => ?_⟩
  · obtain ⟨g0, h0, rfl⟩ := List.mem_map.1 hg
    have := segAfter_live hd
    rw [hl]
    exact h.segments g0 h0 this.1 i (this.2 i hi).2
  · obtain ⟨y0, h0, rfl⟩ := List.mem_map.1 hym
    rw [hl]
    refine h.symbols y0 h0 ?_ i hi
    have h1 : (symAfter b y0).delete = false := hd
    rw [symAfter] at h1
    exact (Bool.or_eq_false_iff.1 h1).1
  · obtain ⟨s0, h0, hd0, hr0⟩ := hrel s hs hd
    rw [hy]
    exact h.relSymbols s0 h0 hd0 r (hr0 r hr) i ht
  · obtain ⟨s0, h0, hd0, hr0⟩ := hrel s hs hd
    rw [hlive]
    exact h.relSections s0 h0 hd0 r (hr0 r hr) i ht
  · have := h.commands i (List.mem_filter.1 hi).1
    show i < (b.segments.map (segAfter b)).length
    rwa [List.length_map]
  · exact h.libraries i (List.mem_filter.1 hi).1

end Obj.MachoB
