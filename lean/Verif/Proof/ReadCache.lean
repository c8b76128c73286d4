import Verif.Model.ReadCache
import Verif.Proof.Bytes

namespace Obj.Cache

/-- The bytes of the file from `s` up to the first `d` are `b`. -/
def ReadsTo (f : List UInt8) (s : Nat) (d : UInt8) (b : List UInt8) : Prop :=
  ∃ suf, f.drop s = b ++ d :: suf ∧ d ∉ b

theorem ReadsTo.length_lt {f : List UInt8} {s : Nat} {d : UInt8} {b : List UInt8} (h : ReadsTo f s d b) :
    s + b.length < f.length := by
  obtain ⟨suf, h, _⟩ := h
  have := congrArg List.length h
  simp at this; omega

theorem readBytesAtUntil_ok_iff (f : List UInt8) (s e : Nat) (d : UInt8) (x : List UInt8) :
    ReadRef.readBytesAtUntil f s e d = .ok x ↔
      s ≤ e ∧ e ≤ f.length ∧ ReadsTo f s d x ∧ s + x.length < e := by
  unfold ReadRef.readBytesAtUntil
  by_cases h : s ≤ e ∧ e ≤ f.length
  · rw [if_pos h]
    dsimp only
    cases hm : memchr d ((f.drop s).take (e - s)) with
    | some n =>
      obtain ⟨pre, suf, h1, h2, h3⟩ := (memchr_some_iff ..).1 hm
      have hl := congrArg List.length h1
      simp at hl
      have hd : f.drop s = pre ++ d :: (suf ++ (f.drop s).drop (e - s)) := by
        conv => lhs; rw [← List.take_append_drop (e - s) (f.drop s), h1]
        simp
      simp only [Res.ok.injEq]
      have ht : (List.take (e - s) (List.drop s f)).take n = pre := by rw [h1, ← h3]; simp
      rw [ht]
      constructor
      · rintro rfl
        exact ⟨h.1, h.2, ⟨_, hd, h2⟩, by omega⟩
      · rintro ⟨_, _, ⟨suf', h5, h6⟩, h7⟩
        have := (memchr_some_iff d (f.drop s) pre.length).2 ⟨pre, _, hd, h2, rfl⟩
        have h8 := (memchr_some_iff d (f.drop s) x.length).2 ⟨x, _, h5, h6, rfl⟩
        rw [this] at h8
        simp only [Option.some.injEq] at h8
        rw [hd] at h5
        exact (List.append_inj h5 h8).1
    | none =>
      simp only [reduceCtorEq, false_iff, not_and]
      rintro _ _ ⟨suf', h5, h6⟩ h7
      have := (memchr_none_iff ..).1 hm
      apply this
      rw [h5, List.take_append]
      have : e - s - x.length = (e - s - x.length - 1) + 1 := by omega
      rw [this]; simp
  · rw [if_neg h]
    simp only [reduceCtorEq, false_iff, not_and]
    intro h1 h2; exact absurd ⟨h1, h2⟩ h

theorem readBytesAtUntil_ne_panic (f : List UInt8) (s e : Nat) (d : UInt8) :
    ReadRef.readBytesAtUntil f s e d ≠ .panic := by
  unfold ReadRef.readBytesAtUntil
  dsimp only
  split
  · split <;> simp
  · simp

theorem take_drop_append_take_drop (f : List UInt8) (s n m : Nat) :
    (f.drop s).take n ++ (f.drop (s + n)).take m = (f.drop s).take (n + m) := by
  rw [List.take_add, List.drop_drop]

theorem untilLoop_sound (f : List UInt8) (env : Env) (start mc : Nat) (d : UInt8) (i : Nat)
    (bytes : List UInt8) (hb : bytes = (f.drop start).take bytes.length) (hd : d ∉ bytes) :
    untilLoop f env start mc d i bytes ≠ .panic ∧
    ∀ x, untilLoop f env start mc d i bytes = .ok x → ReadsTo f start d x ∧ x.length < mc := by
  fun_induction untilLoop f env start mc d i bytes with
  | case1 => simp
  | case2 => simp
  | case3 i bytes checked bufLen k hk got hg n hm =>
    refine ⟨by simp, ?_⟩
    intro x hx
    simp only [Res.ok.injEq] at hx
    subst hx
    obtain ⟨pre, suf, h1, h2, h3⟩ := (memchr_some_iff ..).1 hm
    have hgl : got.length ≤ bufLen := by simp [got]; omega
    have hlen := congrArg List.length h1
    simp at hlen
    have ht : (bytes ++ got).take (checked + n) = bytes ++ pre := by
      rw [h1, ← h3, ← List.append_assoc]
      simp only [checked, ← List.length_append, List.take_left']
    rw [ht]
    refine ⟨⟨suf ++ (f.drop (start + checked)).drop (min bufLen (k + 1)), ?_, ?_⟩, ?_⟩
    · conv => lhs; rw [← List.take_append_drop checked (f.drop start), ← hb, List.drop_drop]
      conv => lhs; rw [← List.take_append_drop (min bufLen (k + 1)) (f.drop (start + checked))]
      change bytes ++ (got ++ _) = _
      rw [h1]; simp
    · simp [hd, h2]
    · simp only [List.length_append]
      omega
  | case4 => simp
  | case5 i bytes checked bufLen k hk got hg hm hlt ih =>
    apply ih
    · have hb' : bytes ++ got = (f.drop start).take (bytes.length + min bufLen (k + 1)) := by
        rw [← take_drop_append_take_drop, ← hb]
      rw [hb', List.length_take, ← List.take_eq_take_min]
    · simp [hd, (memchr_none_iff ..).1 hm]

theorem untilLoop_complete (f : List UInt8) (env : Env) (start mc : Nat) (d : UInt8) (i : Nat)
    (bytes : List UInt8) (hb : bytes = (f.drop start).take bytes.length)
    (hmc : bytes.length < mc) (hr : ∀ i, env.reads i ≠ none)
    (x suf : List UInt8) (hx : f.drop start = x ++ d :: suf) (hnx : d ∉ x) (hxl : x.length < mc)
    (hbx : bytes.length ≤ x.length) :
    untilLoop f env start mc d i bytes = .ok x := by
  fun_induction untilLoop f env start mc d i bytes with
  | case1 i bytes hk => exact absurd hk (hr i)
  | case2 i bytes checked bufLen k hk got hg =>
    exfalso
    have := congrArg List.length hx
    simp at this
    simp [got] at hg
    omega
  | case3 i bytes checked bufLen k hk got hg n hm =>
    obtain ⟨pre, suf', h1, h2, h3⟩ := (memchr_some_iff ..).1 hm
    have ht : (bytes ++ got).take (checked + n) = bytes ++ pre := by
      rw [h1, ← h3, ← List.append_assoc]
      simp only [checked, ← List.length_append, List.take_left']
    rw [ht]
    have hd : d ∉ bytes := by
      rw [hb, hx, List.take_append_of_le_length hbx]
      intro h; exact hnx (List.mem_of_mem_take h)
    have he : f.drop start = (bytes ++ pre) ++ d :: (suf' ++ (f.drop (start + checked)).drop (min bufLen (k + 1))) := by
      conv => lhs; rw [← List.take_append_drop checked (f.drop start), ← hb, List.drop_drop]
      conv => lhs; rw [← List.take_append_drop (min bufLen (k + 1)) (f.drop (start + checked))]
      change bytes ++ (got ++ _) = _
      rw [h1]; simp
    have e1 := (memchr_some_iff d (f.drop start) (bytes ++ pre).length).2
      ⟨_, _, he, by simp [hd, h2], rfl⟩
    have e2 := (memchr_some_iff d (f.drop start) x.length).2 ⟨_, _, hx, hnx, rfl⟩
    rw [e1, Option.some.injEq] at e2
    rw [he] at hx
    exact congrArg _ (List.append_inj hx e2).1
  | case4 i bytes checked bufLen k hk got hg hm hge =>
    exfalso
    have hb' : bytes ++ got = (f.drop start).take (bytes.length + min bufLen (k + 1)) := by
      rw [← take_drop_append_take_drop, ← hb]
    have hd : d ∉ bytes := by
      rw [hb, hx, List.take_append_of_le_length hbx]
      intro h; exact hnx (List.mem_of_mem_take h)
    have hn : d ∉ bytes ++ got := by simp [hd, (memchr_none_iff ..).1 hm]
    apply hn
    have hgl : got.length ≤ min bufLen (k+1) := by simp only [got, List.length_take]; omega
    rw [hb', hx, List.take_append]
    have : bytes.length + min bufLen (k + 1) - x.length = (bytes.length + min bufLen (k + 1) - x.length - 1) + 1 := by
      omega
    rw [this]; simp
  | case5 i bytes checked bufLen k hk got hg hm hlt ih =>
    have hb' : bytes ++ got = (f.drop start).take (bytes.length + min bufLen (k + 1)) := by
      rw [← take_drop_append_take_drop, ← hb]
    have hd : d ∉ bytes := by
      rw [hb, hx, List.take_append_of_le_length hbx]
      intro h; exact hnx (List.mem_of_mem_take h)
    have hn : d ∉ bytes ++ got := by simp [hd, (memchr_none_iff ..).1 hm]
    apply ih
    · rw [hb', List.length_take, ← List.take_eq_take_min]
    · simp; omega
    · -- the delimiter was not among the bytes read, so they are a prefix of `x`
      rcases Nat.lt_or_ge x.length (bytes ++ got).length with h | h
      · exfalso
        apply hn
        rw [hb', hx, List.take_append]
        have h9 := congrArg List.length hb'
        rw [List.length_take] at h9
        have : bytes.length + min bufLen (k + 1) - x.length = (bytes.length + min bufLen (k + 1) - x.length - 1) + 1 := by
          omega
        rw [this]; simp
      · exact h

/-- The start and end of the file range and the delimiter of an `until` operation. -/
def Op.untilRange : Op → Option (Nat × Nat × UInt8)
  | .readUntil a b d => some (a, b, d)
  | .rangeReadUntil o _ a b d => some (o + a, o + b, d)
  | _ => none

theorem assoc_mem {κ ν : Type} [DecidableEq κ] {k : κ} {l : List (κ × ν)} {v : ν} (h : assoc k l = some v) :
    (k, v) ∈ l := by
  induction l with
  | nil => simp [assoc] at h
  | cons p tl ih =>
    obtain ⟨k', v'⟩ := p
    simp only [assoc] at h
    by_cases hk : k' = k
    · rw [if_pos hk] at h; simp only [Option.some.injEq] at h; subst hk h; simp
    · rw [if_neg hk] at h; exact List.mem_cons_of_mem _ (ih h)

/-- What every reachable cache satisfies. -/
structure Inv (f : List UInt8) (h : List (Env × Op)) (c : Cache) : Prop where
  bufs : ∀ o s b, ((o, s), b) ∈ c.bufs → o + s ≤ f.length ∧ b = (f.drop o).take s
  strings : ∀ s d b, ((s, d), b) ∈ c.strings → ReadsTo f s d b
  hist : ∀ s d b, ((s, d), b) ∈ c.strings →
    ∃ x ∈ h, ∃ stop, x.2.untilRange = some (s, stop, d) ∧ s + b.length < stop
  len : ∀ n, c.len = some n → n = f.length

theorem getLen_spec {f h env c} (hi : Inv f h c) :
    Inv f h (getLen f env c).2 ∧ (getLen f env c).2.bufs = c.bufs ∧ (getLen f env c).2.strings = c.strings ∧
    ((getLen f env c).1 = .ok f.length ∨ ((getLen f env c).1 = .err ∧ env.lenOk = false)) := by
  unfold getLen
  cases hl : c.len with
  | some n => have := hi.len n hl; subst this; exact ⟨hi, rfl, rfl, .inl rfl⟩
  | none =>
    dsimp only
    split
    · exact ⟨⟨hi.bufs, hi.strings, hi.hist, by intro n hn; simpa using hn.symm⟩, rfl, rfl, .inl rfl⟩
    · rename_i hne
      exact ⟨hi, rfl, rfl, .inr ⟨rfl, by simpa using hne⟩⟩

theorem rangeInBounds_spec {f h env c} (hi : Inv f h c) (s e : Nat) :
    Inv f h (rangeInBounds f env c s e).2 ∧ (rangeInBounds f env c s e).2.bufs = c.bufs ∧
    (rangeInBounds f env c s e).2.strings = c.strings ∧
    (((rangeInBounds f env c s e).1 = .ok () ∧ s ≤ e ∧ e ≤ f.length) ∨
     ((rangeInBounds f env c s e).1 = .err ∧ (¬ (s ≤ e ∧ e ≤ f.length) ∨ env.lenOk = false))) := by
  unfold rangeInBounds
  by_cases hse : s ≤ e
  · rw [if_pos hse]
    obtain ⟨h1, h2, h3, h4⟩ := getLen_spec (env := env) hi
    match hg : getLen f env c with
    | (r, c') =>
      rw [hg] at h1 h2 h3 h4
      dsimp only at h1 h2 h3 h4
      rcases h4 with h4 | ⟨h4, h5⟩
      · subst h4
        dsimp only
        by_cases he : e ≤ f.length
        · rw [if_pos he]; exact ⟨h1, h2, h3, .inl ⟨rfl, hse, he⟩⟩
        · rw [if_neg he]; exact ⟨h1, h2, h3, .inr ⟨rfl, .inl (fun h => he h.2)⟩⟩
      · subst h4
        exact ⟨h1, h2, h3, .inr ⟨rfl, .inr h5⟩⟩
  · rw [if_neg hse]
    exact ⟨hi, rfl, rfl, .inr ⟨rfl, .inl (fun h => hse h.1)⟩⟩

theorem readRef_readBytesAt_eq (f : List UInt8) (o s : Nat) :
    ReadRef.readBytesAt f o s =
      if s = 0 then .ok [] else if o + s ≤ f.length then .ok ((f.drop o).take s) else .err := by
  unfold ReadRef.readBytesAt
  by_cases h0 : s = 0
  · simp [h0]
  · rw [if_neg h0, if_neg h0]
    by_cases h1 : f.length < o
    · rw [if_pos h1, if_neg (by omega)]
    · rw [if_neg h1]
      simp only [List.length_drop]
      by_cases h2 : f.length - o < s
      · rw [if_pos h2, if_neg (by omega)]
      · rw [if_neg h2, if_pos (by omega)]

theorem readBytesAt_spec {f h env c} (hf : f.length < U64) (hi : Inv f h c) (o s : Nat) :
    Inv f h (readBytesAt f env c o s).2 ∧
    ((readBytesAt f env c o s).1 = ReadRef.readBytesAt f o s ∨
     ((readBytesAt f env c o s).1 = .err ∧ ¬ env.Good)) := by
  unfold readBytesAt
  rw [readRef_readBytesAt_eq]
  by_cases h0 : s = 0
  · simp [h0, hi]
  rw [if_neg h0, if_neg h0]
  obtain ⟨h1, h2, h3, h4⟩ := rangeInBounds_spec (env := env) hi o (saturatingAdd o s)
  have hsat : (o ≤ saturatingAdd o s ∧ saturatingAdd o s ≤ f.length) → o + s ≤ f.length ∨ (o + s ≥ U64 ∧ f.length = U64 - 1) := by
    unfold saturatingAdd; split <;> omega
  have hsat' : o + s ≤ f.length → (o ≤ saturatingAdd o s ∧ saturatingAdd o s ≤ f.length) := by
    unfold saturatingAdd; split <;> omega
  match hg : rangeInBounds f env c o (saturatingAdd o s) with
  | (r, c') =>
    rw [hg] at h1 h2 h3 h4
    dsimp only at h1 h2 h3 h4
    rcases h4 with ⟨h4, h5, h6⟩ | ⟨h4, h5⟩
    · subst h4
      dsimp only
      cases ha : assoc (o, s) c'.bufs with
      | some b =>
        obtain ⟨h7, h8⟩ := h1.bufs _ _ _ (assoc_mem ha)
        dsimp only
        rw [if_pos h7]
        exact ⟨h1, .inl (by rw [h8])⟩
      | none =>
        dsimp only
        split
        · split
          · split
            · rename_i h9
              have h10 : o + s ≤ f.length := by
                have := h9.2; simp at this; omega
              rw [if_pos h10]
              refine ⟨⟨?_, h1.strings, h1.hist, h1.len⟩, .inl rfl⟩
              intro o' s' b' hm
              simp only [List.mem_cons, Prod.mk.injEq] at hm
              rcases hm with ⟨⟨rfl, rfl⟩, rfl⟩ | hm
              · exact ⟨h10, rfl⟩
              · exact h1.bufs _ _ _ hm
            · rename_i h9
              refine ⟨h1, ?_⟩
              by_cases h10 : o + s ≤ f.length
              · right
                refine ⟨rfl, fun hg => h9 ⟨hg.2.2.1, by simp; omega⟩⟩
              · rw [if_neg h10]; exact .inl rfl
          · rename_i h9
            exact ⟨h1, .inr ⟨rfl, fun hg => h9 hg.2.2.2.1⟩⟩
        · rename_i h9
          exact ⟨h1, .inr ⟨rfl, fun hg => h9 hg.2.1⟩⟩
    · subst h4
      refine ⟨h1, ?_⟩
      rcases h5 with h5 | h5
      · rw [if_neg (fun h => h5 (hsat' h))]; exact .inl rfl
      · exact .inr ⟨rfl, fun hg => by rw [hg.1] at h5; cases h5⟩

theorem Inv.mono {f h c} (hi : Inv f h c) (x : Env × Op) : Inv f (h ++ [x]) c :=
  ⟨hi.bufs, hi.strings, fun s d b hm => by
    obtain ⟨y, hy, r⟩ := hi.hist s d b hm
    exact ⟨y, by simp [hy], r⟩, hi.len⟩

theorem readBytesAtUntil_spec {f h env c} (hi : Inv f h c) (s e : Nat) (d : UInt8)
    (x : Env × Op) (hx : x ∈ h) (hxr : x.2.untilRange = some (s, e, d)) :
    Inv f h (readBytesAtUntil f env c s e d).2 := by
  unfold readBytesAtUntil
  obtain ⟨h1, h2, h3, h4⟩ := rangeInBounds_spec (env := env) hi s e
  match hg : rangeInBounds f env c s e with
  | (r, c') =>
    rw [hg] at h1 h2 h3 h4
    dsimp only at h1 h2 h3 h4
    rcases h4 with ⟨h4, h5, h6⟩ | ⟨h4, h5⟩
    · subst h4
      dsimp only
      cases ha : assoc (s, d) c'.strings with
      | some b => exact h1
      | none =>
        dsimp only
        split
        · obtain ⟨hnp, hso⟩ := untilLoop_sound f env s (min (e - s) 4096) d 0 [] (by simp) (by simp)
          cases hu : untilLoop f env s (min (e - s) 4096) d 0 [] with
          | ok y =>
            obtain ⟨h7, h8⟩ := hso y hu
            refine ⟨h1.bufs, ?_, ?_, h1.len⟩
            · intro s' d' b' hm
              simp only [List.mem_cons, Prod.mk.injEq] at hm
              rcases hm with ⟨⟨rfl, rfl⟩, rfl⟩ | hm
              · exact h7
              · exact h1.strings _ _ _ hm
            · intro s' d' b' hm
              simp only [List.mem_cons, Prod.mk.injEq] at hm
              rcases hm with ⟨⟨rfl, rfl⟩, rfl⟩ | hm
              · exact ⟨x, hx, e, hxr, by omega⟩
              · exact h1.hist _ _ _ hm
          | err => exact h1
          | panic => exact h1
        · exact h1
    · subst h4; exact h1

theorem readBytesAtUntil_result {f h env c} (hi : Inv f h c) (s e : Nat) (d : UInt8) :
    (∀ x, (readBytesAtUntil f env c s e d).1 = .ok x →
      s ≤ e ∧ e ≤ f.length ∧ ReadsTo f s d x ∧
      (s + x.length < e ∨ ((s, d), x) ∈ c.strings)) ∧
    (readBytesAtUntil f env c s e d).1 ≠ .panic ∧
    (∀ x, env.Good → s ≤ e → e ≤ f.length → ReadsTo f s d x → s + x.length < e → x.length < 4096 →
      (readBytesAtUntil f env c s e d).1 = .ok x) := by
  unfold readBytesAtUntil
  obtain ⟨h1, h2, h3, h4⟩ := rangeInBounds_spec (env := env) hi s e
  match hg : rangeInBounds f env c s e with
  | (r, c') =>
    rw [hg] at h1 h2 h3 h4
    dsimp only at h1 h2 h3 h4
    rcases h4 with ⟨h4, h5, h6⟩ | ⟨h4, h5⟩
    · subst h4
      dsimp only
      cases ha : assoc (s, d) c'.strings with
      | some b =>
        have hb := h1.strings _ _ _ (assoc_mem ha)
        refine ⟨?_, by simp, ?_⟩
        · intro x hx
          simp only [Res.ok.injEq] at hx
          subst hx
          exact ⟨h5, h6, hb, .inr (h3 ▸ assoc_mem ha)⟩
        · intro x _ _ _ hx _ _
          obtain ⟨s1, e1, e2⟩ := hb
          obtain ⟨s2, e3, e4⟩ := hx
          have k1 := (memchr_some_iff d (f.drop s) b.length).2 ⟨_, _, e1, e2, rfl⟩
          have k2 := (memchr_some_iff d (f.drop s) x.length).2 ⟨_, _, e3, e4, rfl⟩
          rw [k1, Option.some.injEq] at k2
          rw [e1] at e3
          exact congrArg _ (List.append_inj e3 k2).1
      | none =>
        dsimp only
        split
        · obtain ⟨hnp, hso⟩ := untilLoop_sound f env s (min (e - s) 4096) d 0 [] (by simp) (by simp)
          cases hu : untilLoop f env s (min (e - s) 4096) d 0 [] with
          | ok y =>
            obtain ⟨h7, h8⟩ := hso y hu
            refine ⟨?_, by simp, ?_⟩
            · intro x hx
              simp only [Res.ok.injEq] at hx
              subst hx
              exact ⟨h5, h6, h7, .inl (by omega)⟩
            · intro x hgd _ _ hx hxe hxl
              obtain ⟨s2, e3, e4⟩ := hx
              have := untilLoop_complete f env s (min (e - s) 4096) d 0 [] (by simp) (by simp; omega)
                hgd.2.2.2.2 x s2 e3 e4 (by omega) (by simp)
              rw [hu] at this; exact this
          | err =>
            refine ⟨by simp, by simp, ?_⟩
            intro x hgd _ _ hx hxe hxl
            obtain ⟨s2, e3, e4⟩ := hx
            have := untilLoop_complete f env s (min (e - s) 4096) d 0 [] (by simp) (by simp; omega)
              hgd.2.2.2.2 x s2 e3 e4 (by omega) (by simp)
            rw [hu] at this; cases this
          | panic => exact absurd hu hnp
        · rename_i h9
          exact ⟨by simp, by simp, fun x hgd => absurd hgd.2.1 h9⟩
    · subst h4
      refine ⟨by simp, by simp, ?_⟩
      intro x hgd ha hb
      rcases h5 with h5 | h5
      · exact absurd ⟨ha, hb⟩ h5
      · rw [hgd.1] at h5; cases h5

theorem new_inv (f : List UInt8) : Inv f [] new :=
  ⟨by simp [new], by simp [new], by simp [new], by simp [new]⟩

theorem after_inv {f : List UInt8} (hf : f.length < U64) (h : List (Env × Op)) : Inv f h (after f h) := by
  suffices ∀ (pre : List (Env × Op)) (c : Cache), Inv f pre c → Inv f (pre ++ h) (h.foldl (step f) c) by
    have := this [] new (new_inv f)
    rw [List.nil_append] at this
    exact this
  induction h with
  | nil => intro pre c hi; simpa using hi
  | cons x h ih =>
    intro pre c hi
    have : pre ++ x :: h = (pre ++ [x]) ++ h := by simp
    rw [this, List.foldl_cons]
    apply ih
    have hi' := hi.mono x
    obtain ⟨env, op⟩ := x
    cases op with
    | len => exact (getLen_spec hi').1
    | read a b => exact (readBytesAt_spec hf hi' a b).1
    | readUntil a b d => exact readBytesAtUntil_spec hi' a b d (env, .readUntil a b d) (by simp) rfl
    | rangeRead o s a b =>
      simp only [step, rangeReadBytesAt]
      split
      · exact hi'
      split
      · exact hi'
      split
      · exact hi'
      split
      · exact hi'
      · exact (readBytesAt_spec hf hi' _ _).1
    | rangeReadUntil o s a b d =>
      simp only [step, rangeReadBytesAtUntil]
      split
      · exact hi'
      split
      · exact hi'
      have := readBytesAtUntil_spec (env := env) hi' (o + a) (o + b) d (env, .rangeReadUntil o s a b d) (by simp) rfl
      match hr : readBytesAtUntil f env c (o + a) (o + b) d with
      | (.ok y, c') =>
        rw [hr] at this
        dsimp only at this ⊢
        split
        · exact this
        split <;> exact this
      | (.err, c') => rw [hr] at this; exact this
      | (.panic, c') => rw [hr] at this; exact this
    | clear => exact ⟨by simp [step, clear], hi'.strings, hi'.hist, hi'.len⟩

end Obj.Cache
