import Verif.Spec.SymbolMap

namespace Obj.SymMap
open Obj Obj.Spec.SymMapS

theorem Tuple.le_iff (a b : Tuple) : a.le b = true ↔ a.address < b.address ∨ (a.address = b.address ∧
    (a.priority < b.priority ∨ (a.priority = b.priority ∧
      (a.index < b.index ∨ (a.index = b.index ∧
        (a.size < b.size ∨ (a.size = b.size ∧ a.name ≤ b.name))))))) := by
  simp [Tuple.le]

theorem Tuple.le_trans (a b c : Tuple) (h1 : a.le b = true) (h2 : b.le c = true) : a.le c = true := by
  rw [Tuple.le_iff] at *
  have := @List.le_trans UInt8 _ _ _ _ a.name b.name c.name
  have key : ∀ (A1 A2 A3 : Nat) (P Q R : Prop), (P → Q → R) → (A1 < A2 ∨ (A1 = A2 ∧ P)) → (A2 < A3 ∨ (A2 = A3 ∧ Q)) →
      (A1 < A3 ∨ (A1 = A3 ∧ R)) := by
    rintro A1 A2 A3 P Q R h (h1 | ⟨rfl, h1⟩) (h2 | ⟨rfl, h2⟩)
    · left; omega
    · left; omega
    · left; omega
    · exact Or.inr ⟨rfl, h h1 h2⟩
  exact key _ _ _ _ _ _ (key _ _ _ _ _ _ (key _ _ _ _ _ _ (key _ _ _ _ _ _ this))) h1 h2

theorem Tuple.le_total (a b : Tuple) : (a.le b || b.le a) = true := by
  rw [Bool.or_eq_true, Tuple.le_iff, Tuple.le_iff]
  have := List.le_total a.name b.name
  have key : ∀ (A B : Nat) (P Q : Prop), (P ∨ Q) → (A < B ∨ (A = B ∧ P)) ∨ (B < A ∨ (B = A ∧ Q)) := by
    intro A B P Q h
    rcases Nat.lt_trichotomy A B with h1 | h1 | h1
    · exact Or.inl (Or.inl h1)
    · subst h1; rcases h with h | h
      · exact Or.inl (Or.inr ⟨rfl, h⟩)
      · exact Or.inr (Or.inr ⟨rfl, h⟩)
    · exact Or.inr (Or.inl h1)
  exact key _ _ _ _ (key _ _ _ _ (key _ _ _ _ (key _ _ _ _ this)))

theorem Tuple.le_address {a b : Tuple} (h : a.le b = true) : a.address ≤ b.address := by
  rw [Tuple.le_iff] at h; omega

def Tuple.entry (t : Tuple) : Entry := ⟨t.address, t.size, t.name⟩

theorem dedup_spec (L : List Tuple) (p : Nat) (hs : L.Pairwise fun a b => a.le b = true) (hp : ∀ t ∈ L, p ≤ t.address) :
    (dedup p L).Pairwise (fun a b => a.address < b.address) ∧ (∀ e ∈ dedup p L, p < e.address) ∧
    (∀ e ∈ dedup p L, ∃ t ∈ L, e = t.entry ∧ ∀ u ∈ L, u.address = t.address → t.le u = true) ∧
    (∀ t ∈ L, t.address ≠ p → ∃ e ∈ dedup p L, e.address = t.address) := by
  induction L generalizing p with
  | nil => simp [dedup]
  | cons t L ih =>
    obtain ⟨h1, h2⟩ := List.pairwise_cons.1 hs
    unfold dedup
    by_cases hc : t.address = p
    · rw [if_neg (by simpa using hc)]
      obtain ⟨i1, i2, i3, i4⟩ := ih p h2 (fun u hu => hp u (by simp [hu]))
      refine ⟨i1, i2, ?_, ?_⟩
      · intro e he
        obtain ⟨u, hu, rfl, hu'⟩ := i3 e he
        refine ⟨u, by simp [hu], rfl, ?_⟩
        intro v hv hva
        rcases List.mem_cons.1 hv with rfl | hv
        · have := i2 _ he
          simp [Tuple.entry] at this; omega
        · exact hu' v hv hva
      · intro u hu hne
        rcases List.mem_cons.1 hu with rfl | hu
        · exact absurd hc hne
        · exact i4 u hu hne
    · rw [if_pos hc]
      have hle : ∀ u ∈ L, t.address ≤ u.address := fun u hu => Tuple.le_address (h1 u hu)
      obtain ⟨i1, i2, i3, i4⟩ := ih t.address h2 hle
      have hpt := hp t (by simp)
      refine ⟨List.pairwise_cons.2 ⟨fun e he => i2 e he, i1⟩, ?_, ?_, ?_⟩
      · intro e he
        rcases List.mem_cons.1 he with rfl | he
        · simp; omega
        · have := i2 e he; omega
      · intro e he
        rcases List.mem_cons.1 he with rfl | he
        · refine ⟨t, by simp, rfl, ?_⟩
          intro u hu hua
          rcases List.mem_cons.1 hu with rfl | hu
          · have := Tuple.le_total u u; simpa using this
          · exact h1 u hu
        · obtain ⟨u, hu, rfl, hu'⟩ := i3 e he
          refine ⟨u, by simp [hu], rfl, ?_⟩
          intro v hv hva
          rcases List.mem_cons.1 hv with rfl | hv
          · have := i2 _ he
            simp [Tuple.entry] at this; omega
          · exact hu' v hv hva
      · intro u hu hne
        by_cases hua : u.address = t.address
        · exact ⟨⟨t.address, t.size, t.name⟩, by simp, hua.symm⟩
        · rcases List.mem_cons.1 hu with rfl | hu
          · exact absurd rfl hua
          · obtain ⟨e, he, hea⟩ := i4 u hu hua
            exact ⟨e, by simp [he], hea⟩

/-- Starting from the largest address: nothing if every address is the largest, else every address. -/
theorem dedup_max (L : List Tuple) (M : Nat) (hs : L.Pairwise fun a b => a.le b = true) (hM : ∀ t ∈ L, t.address ≤ M) :
    (dedup M L).Pairwise (fun a b => a.address < b.address) ∧
    (∀ e ∈ dedup M L, ∃ t ∈ L, e = t.entry ∧ ∀ u ∈ L, u.address = t.address → t.le u = true) ∧
    ((∃ t ∈ L, t.address ≠ M) → ∀ t ∈ L, ∃ e ∈ dedup M L, e.address = t.address) ∧
    ((∀ t ∈ L, t.address = M) → dedup M L = []) := by
  cases L with
  | nil => simp [dedup]
  | cons t L =>
    obtain ⟨h1, h2⟩ := List.pairwise_cons.1 hs
    by_cases hc : t.address = M
    · have hall : ∀ u ∈ t :: L, u.address = M := by
        intro u hu
        rcases List.mem_cons.1 hu with rfl | hu'
        · exact hc
        · have := Tuple.le_address (h1 u hu'); have := hM u hu; omega
      have hnil : dedup M (t :: L) = [] := by
        clear hs h1 h2 hM hc
        generalize t :: L = K at *
        induction K with
        | nil => rfl
        | cons u K ih =>
          unfold dedup
          rw [if_neg (by simpa using hall u (by simp))]
          exact ih (fun v hv => hall v (by simp [hv]))
      rw [hnil]
      refine ⟨List.Pairwise.nil, by simp, ?_, fun _ => rfl⟩
      rintro ⟨u, hu, hne⟩
      exact absurd (hall u hu) hne
    · have hle : ∀ u ∈ L, t.address ≤ u.address := fun u hu => Tuple.le_address (h1 u hu)
      obtain ⟨i1, i2, i3, i4⟩ := dedup_spec L t.address h2 hle
      unfold dedup
      rw [if_pos hc]
      refine ⟨List.pairwise_cons.2 ⟨fun e he => i2 e he, i1⟩, ?_, ?_, ?_⟩
      · intro e he
        rcases List.mem_cons.1 he with rfl | he
        · refine ⟨t, by simp, rfl, ?_⟩
          intro u hu hua
          rcases List.mem_cons.1 hu with rfl | hu
          · have := Tuple.le_total u u; simpa using this
          · exact h1 u hu
        · obtain ⟨u, hu, rfl, hu'⟩ := i3 e he
          refine ⟨u, by simp [hu], rfl, ?_⟩
          intro v hv hva
          rcases List.mem_cons.1 hv with rfl | hv
          · have := i2 _ he
            simp [Tuple.entry] at this; omega
          · exact hu' v hv hva
      · intro _ u hu
        by_cases hua : u.address = t.address
        · exact ⟨⟨t.address, t.size, t.name⟩, by simp, hua.symm⟩
        · rcases List.mem_cons.1 hu with rfl | hu
          · exact absurd rfl hua
          · obtain ⟨e, he, hea⟩ := i4 u hu hua
            exact ⟨e, by simp [he], hea⟩
      · intro h; exact absurd (h t (by simp)) hc

/-- One guessed entry. -/
def fix (s : Entry) (p : Nat) : Entry := ⟨s.address, if s.size = 0 then p - s.address else s.size, s.name⟩

/-- Guessing sizes, in order. -/
def guess' : List Entry → List Entry
  | [] => []
  | [x] => [x]
  | x :: y :: r => fix x y.address :: guess' (y :: r)

theorem guessLoop_append (p : Nat) (l : List Entry) (x : Entry) :
    guessLoop p (l ++ [x]) = guessLoop p l ++ [fix x ((l.map Entry.address).getLastD p)] := by
  induction l generalizing p with
  | nil => rfl
  | cons a l ih => simp only [List.cons_append, guessLoop, ih, List.map_cons, List.getLastD_cons]

theorem guess_eq (E : List Entry) : guess E = guess' E := by
  match E with
  | [] => rfl
  | [x] => rfl
  | x :: y :: r =>
    have ih := guess_eq (y :: r)
    unfold guess at ih ⊢
    have hr : (x :: y :: r).reverse = (y :: r).reverse ++ [x] := by simp
    rw [hr]
    have hr2 : (y :: r).reverse = r.reverse ++ [y] := by simp
    cases hcase : (y :: r).reverse with
    | nil => simp at hcase
    | cons last rest =>
      rw [hcase] at ih
      simp only at ih
      simp only [List.cons_append]
      rw [guessLoop_append, guess', ← ih]
      have hlast : (rest.map Entry.address).getLastD last.address = y.address := by
        rw [hr2] at hcase
        have h1 : (last :: rest).getLast? = some y := by rw [← hcase]; simp
        cases rest with
        | nil => simp at h1; simp [h1]
        | cons a rest =>
          have : ((a :: rest).map Entry.address).getLast? = some y.address := by
            rw [List.getLast?_map]
            rw [List.getLast?_cons_cons] at h1
            rw [h1]; rfl
          rw [List.getLastD_eq_getLast?, this]; rfl
      rw [hlast]
      simp

theorem guess'_map_address (E : List Entry) : (guess' E).map Entry.address = E.map Entry.address := by
  match E with
  | [] => rfl
  | [x] => rfl
  | x :: y :: r => simp [guess', fix, guess'_map_address (y :: r)]

theorem guess'_mem (E : List Entry) (hs : E.Pairwise fun a b => a.address < b.address) (g : Entry) (hg : g ∈ guess' E) :
    ∃ e ∈ E, g.address = e.address ∧ g.name = e.name ∧
      ((e.size ≠ 0 ∧ g.size = e.size) ∨
       (e.size = 0 ∧ ((∃ a, a ∈ E.map Entry.address ∧ e.address < a ∧ (∀ b ∈ E.map Entry.address, e.address < b → a ≤ b) ∧
          g.size = a - e.address) ∨ ((∀ b ∈ E.map Entry.address, b ≤ e.address) ∧ g.size = 0)))) := by
  match E with
  | [] => simp [guess'] at hg
  | [x] =>
    simp [guess'] at hg; subst hg
    refine ⟨g, by simp, rfl, rfl, ?_⟩
    by_cases h : g.size = 0
    · right; exact ⟨h, Or.inr ⟨by simp, h⟩⟩
    · left; exact ⟨h, rfl⟩
  | x :: y :: r =>
    obtain ⟨h1, h2⟩ := List.pairwise_cons.1 hs
    rcases List.mem_cons.1 hg with rfl | hg
    · refine ⟨x, by simp, rfl, rfl, ?_⟩
      by_cases h : x.size = 0
      · right
        refine ⟨h, Or.inl ⟨y.address, by simp, h1 y (by simp), ?_, by simp [fix, h]⟩⟩
        intro b hb hxb
        simp only [List.map_cons, List.mem_cons] at hb
        rcases hb with rfl | rfl | hb
        · omega
        · exact Nat.le_refl _
        · rw [List.mem_map] at hb
          obtain ⟨z, hz, rfl⟩ := hb
          exact Nat.le_of_lt ((List.pairwise_cons.1 h2).1 z hz)
      · left; exact ⟨h, by simp [fix, h]⟩
    · obtain ⟨e, he, ha, hn, hsz⟩ := guess'_mem (y :: r) h2 g hg
      refine ⟨e, List.mem_cons_of_mem _ he, ha, hn, ?_⟩
      have hxe := h1 e he
      rcases hsz with hsz | ⟨hz, hsz⟩
      · exact Or.inl hsz
      · right
        refine ⟨hz, ?_⟩
        rcases hsz with ⟨a, ha1, ha2, ha3, ha4⟩ | ⟨hb, hz'⟩
        · left
          refine ⟨a, List.mem_cons_of_mem _ ha1, ha2, ?_, ha4⟩
          intro b hb hlt
          rcases List.mem_cons.1 hb with rfl | hb
          · omega
          · exact ha3 b hb hlt
        · right
          refine ⟨?_, hz'⟩
          intro b hb'
          rcases List.mem_cons.1 hb' with rfl | hb'
          · omega
          · exact hb b hb'

/-- Every entry keeps its place: the guessed list has an entry for each. -/
theorem guess'_complete (E : List Entry) (e : Entry) (he : e ∈ E) : ∃ g ∈ guess' E, g.address = e.address ∧ g.name = e.name := by
  match E with
  | [] => simp at he
  | [x] => exact ⟨e, by simpa [guess'] using he, rfl, rfl⟩
  | x :: y :: r =>
    rcases List.mem_cons.1 he with rfl | he
    · exact ⟨fix e y.address, by simp [guess'], rfl, rfl⟩
    · obtain ⟨g, hg, h⟩ := guess'_complete (y :: r) e he
      exact ⟨g, by simp [guess', hg], h⟩

/-- The tuple pushed for a candidate. -/
def candTuple (s : Symbol) (n : List UInt8) : Tuple :=
  ⟨s.address, priority s (if s.kind = .unknown then 1 else 0), U64 - 1 - s.index, s.size, n⟩

theorem mem_tuplesOf (s : Symbol) (t : Tuple) : t ∈ tuplesOf s ↔ Candidate s ∧
    ((∃ n, s.name = some n ∧ t = candTuple s n) ∨
     (s.xcoffLabel ≠ none ∧ s.size ≠ 0 ∧ t = endMarker (satAdd s.address s.size))) := by
  unfold tuplesOf Candidate candTuple
  by_cases hd : s.isDefinition = true
  · cases hn : s.name with
    | none => simp [hd]
    | some n =>
      by_cases he : n = []
      · simp [hd, he]
      · by_cases hx : s.xcoffLabel ≠ none ∧ s.size ≠ 0
        · cases hk : s.kind <;> simp [hd, he, hx, or_comm]
        · cases hk : s.kind <;> simp [hd, he, hx] <;> intro h1 h2 <;> exact absurd ⟨h1, h2⟩ hx
  · simp [hd]

theorem priority_lt (s : Symbol) (k : Nat) (hk : k ≤ 1) : priority s k < 32 := by
  unfold priority
  simp only
  split <;> split <;> split <;> omega

def scopeRank (s : Symbol) : Nat :=
  match s.scope with | .dynamic => 0 | .linkage => 1 | .compilation => 2 | .unknown => 3

theorem rank_eq (s : Symbol) : rank s = [if s.kind = .unknown then 1 else 0, if s.xcoffLabel = some false then 1 else 0,
    if s.size = 0 then 1 else 0, scopeRank s] := rfl

theorem priority_eq (s : Symbol) (k : Nat) : priority s k =
    ((k * 2 + (if s.xcoffLabel = some false then 1 else 0)) * 2 + (if s.size = 0 then 1 else 0)) * 4 + scopeRank s := by
  unfold priority scopeRank
  rcases s.xcoffLabel with _ | _ | _ <;> cases s.scope <;> rfl

theorem priority_le_iff (s t : Symbol) :
    (priority s (if s.kind = .unknown then 1 else 0) < priority t (if t.kind = .unknown then 1 else 0) ↔ rank s < rank t) ∧
    (priority s (if s.kind = .unknown then 1 else 0) = priority t (if t.kind = .unknown then 1 else 0) ↔ rank s = rank t) := by
  rw [priority_eq, priority_eq, rank_eq, rank_eq]
  have lt4 : ∀ a b c d a' b' c' d' : Nat, ([a, b, c, d] < [a', b', c', d'] ↔
      a < a' ∨ (a = a' ∧ (b < b' ∨ (b = b' ∧ (c < c' ∨ (c = c' ∧ d < d')))))) := by
    intros; simp [List.cons_lt_cons_iff]
  rw [lt4]
  simp only [List.cons.injEq, and_true]
  have hsl : ∀ s : Symbol, scopeRank s < 4 := by
    intro s; unfold scopeRank; cases s.scope <;> decide
  have hi : ∀ (p : Prop) [Decidable p], (if p then 1 else 0 : Nat) < 2 := by intro p _; split <;> decide
  have a1 := hi (s.kind = .unknown); have a2 := hi (t.kind = .unknown)
  have b1 := hi (s.xcoffLabel = some false); have b2 := hi (t.xcoffLabel = some false)
  have c1 := hi (s.size = 0); have c2 := hi (t.size = 0)
  have d1 := hsl s; have d2 := hsl t
  generalize (if s.kind = .unknown then 1 else 0 : Nat) = A at *
  generalize (if t.kind = .unknown then 1 else 0 : Nat) = A' at *
  generalize (if s.xcoffLabel = some false then 1 else 0 : Nat) = B at *
  generalize (if t.xcoffLabel = some false then 1 else 0 : Nat) = B' at *
  generalize (if s.size = 0 then 1 else 0 : Nat) = C at *
  generalize (if t.size = 0 then 1 else 0 : Nat) = C' at *
  generalize scopeRank s = D at *
  generalize scopeRank t = D' at *
  constructor <;> omega

theorem mem_allSymbols (symbols : List Symbol) (sections : List (Nat × Nat)) (t : Tuple) :
    t ∈ allSymbols symbols sections ↔
      (∃ s ∈ symbols, Candidate s ∧ ∃ n, s.name = some n ∧ t = candTuple s n) ∨
      (∃ s ∈ symbols, Candidate s ∧ s.xcoffLabel ≠ none ∧ s.size ≠ 0 ∧ t = endMarker (satAdd s.address s.size)) ∨
      (∃ s ∈ sections, t = endMarker (satAdd s.1 s.2)) := by
  unfold allSymbols
  rw [List.mem_append, List.mem_flatMap, List.mem_map]
  constructor
  · rintro (⟨s, hs, ht⟩ | ⟨s, hs, rfl⟩)
    · rcases (mem_tuplesOf s t).1 ht with ⟨hc, h | ⟨h1, h2, h3⟩⟩
      · exact Or.inl ⟨s, hs, hc, h⟩
      · exact Or.inr (Or.inl ⟨s, hs, hc, h1, h2, h3⟩)
    · exact Or.inr (Or.inr ⟨s, hs, rfl⟩)
  · rintro (⟨s, hs, hc, h⟩ | ⟨s, hs, hc, h1, h2, h3⟩ | ⟨s, hs, rfl⟩)
    · exact Or.inl ⟨s, hs, (mem_tuplesOf s t).2 ⟨hc, Or.inl h⟩⟩
    · exact Or.inl ⟨s, hs, (mem_tuplesOf s t).2 ⟨hc, Or.inr ⟨h1, h2, h3⟩⟩⟩
    · exact Or.inr ⟨s, hs, rfl⟩

theorem known_iff (symbols : List Symbol) (sections : List (Nat × Nat)) (a : Nat) :
    Known symbols sections a ↔ ∃ t ∈ allSymbols symbols sections, t.address = a := by
  unfold Known
  constructor
  · rintro (⟨s, hs, hc, rfl⟩ | ⟨s, hs, hc, h1, h2, rfl⟩ | ⟨s, hs, rfl⟩)
    · obtain ⟨n, hn, -⟩ := hc.2.1
      exact ⟨candTuple s n, (mem_allSymbols ..).2 (Or.inl ⟨s, hs, hc, n, hn, rfl⟩), rfl⟩
    · exact ⟨_, (mem_allSymbols ..).2 (Or.inr (Or.inl ⟨s, hs, hc, h1, h2, rfl⟩)), rfl⟩
    · exact ⟨_, (mem_allSymbols ..).2 (Or.inr (Or.inr ⟨s, hs, rfl⟩)), rfl⟩
  · rintro ⟨t, ht, rfl⟩
    rcases (mem_allSymbols ..).1 ht with ⟨s, hs, hc, n, hn, rfl⟩ | ⟨s, hs, hc, h1, h2, rfl⟩ | ⟨s, hs, rfl⟩
    · exact Or.inl ⟨s, hs, hc, rfl⟩
    · exact Or.inr (Or.inl ⟨s, hs, hc, h1, h2, rfl⟩)
    · exact Or.inr (Or.inr ⟨s, hs, rfl⟩)

end Obj.SymMap
