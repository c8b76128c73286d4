import Verif.Proof.ReadCache

/-! # C08: cached file reads.

`f` is the whole file; `Cache.after f h` is a `ReadCache` over it after an arbitrary history `h` of
operations (each with its own I/O faults and short reads); `ReadRef.*` are the in-memory reads. -/

namespace Obj.Props
open Obj Cache

/-- Whatever happened before, `read_bytes_at` through the cache returns what the same read of the
in-memory contents returns, unless this very call meets an I/O fault, in which case it may also return
an error (but never wrong data and never a panic). -/
theorem C08_read (f : List UInt8) (hf : f.length < U64) (h : List (Env × Op)) (env : Env)
    (offset size : Nat) :
    ((readBytesAt f env (after f h) offset size).1 = ReadRef.readBytesAt f offset size ∨
      ((readBytesAt f env (after f h) offset size).1 = .err ∧ ¬ env.Good)) ∧
    (env.Good → (readBytesAt f env (after f h) offset size).1 = ReadRef.readBytesAt f offset size) := by
  have := (readBytesAt_spec (env := env) hf (after_inv hf h) offset size).2
  exact ⟨this, fun hg => this.resolve_right (fun h => h.2 hg)⟩

/-- The same for a `ReadCacheRange` over `o .. o + s` (inside the file): it reads like a slice holding
just those bytes. -/
theorem C08_range_read (f : List UInt8) (hf : f.length < U64) (h : List (Env × Op)) (env : Env)
    (hg : env.Good) (o s offset size : Nat) (hos : o + s ≤ f.length) :
    (rangeReadBytesAt f env (after f h) o s offset size).1 =
      ReadRef.readBytesAt ((f.drop o).take s) offset size := by
  have hr := (C08_read f hf h env (o + offset) size).2 hg
  rw [readRef_readBytesAt_eq] at hr ⊢
  unfold rangeReadBytesAt
  by_cases h0 : size = 0
  · simp [h0]
  rw [if_neg h0, if_neg h0]
  rw [if_neg h0] at hr
  have hl : ((f.drop o).take s).length = s := by simp; omega
  rw [hl]
  by_cases h1 : offset + size ≤ s
  · rw [if_neg (by omega), if_neg (by omega), if_neg (by omega), if_pos h1, hr, if_pos (by omega)]
    rw [List.drop_take, List.take_take, List.drop_drop, Nat.min_eq_left (by omega)]
  · rw [if_neg h1]
    by_cases h2 : U64 ≤ offset + size
    · rw [if_pos h2]
    · rw [if_neg h2, if_pos (by omega)]

example : ∃ env : Env, env.Good := ⟨⟨true, true, true, true, fun _ => some 0⟩, by simp [Env.Good]⟩

/-- A short concrete history: overlapping reads, a delimited read, a `clear`, with one-byte short reads. -/
example : (readBytesAt [1, 2, 3, 0, 5] ⟨true, true, true, true, fun _ => some 0⟩
    (after [1, 2, 3, 0, 5] [(⟨true, true, true, true, fun _ => some 0⟩, .read 0 2),
      (⟨true, true, false, true, fun _ => none⟩, .read 1 3),
      (⟨true, true, true, true, fun _ => some 0⟩, .clear)]) 1 3).1 = .ok [2, 3, 0] := by decide

/-- Delimited reads are sound whatever the history and the faults: a result is the bytes of the file from
`start` up to the first delimiter, the requested range lies in the file, and nothing panics. -/
theorem C08_until_sound (f : List UInt8) (hf : f.length < U64) (h : List (Env × Op)) (env : Env)
    (start stop : Nat) (d : UInt8) :
    (readBytesAtUntil f env (after f h) start stop d).1 ≠ .panic ∧
    ∀ x, (readBytesAtUntil f env (after f h) start stop d).1 = .ok x →
      start ≤ stop ∧ stop ≤ f.length ∧ ReadRef.readBytesAtUntil f start f.length d = .ok x := by
  obtain ⟨h1, h2, _⟩ := readBytesAtUntil_result (env := env) (after_inv hf h) start stop d
  refine ⟨h2, fun x hx => ?_⟩
  obtain ⟨a, b, c, _⟩ := h1 x hx
  exact ⟨a, b, (readBytesAtUntil_ok_iff ..).2 ⟨by omega, Nat.le_refl _, c, c.length_lt⟩⟩

/-- Delimited reads are complete for strings shorter than 4096 bytes: whenever the in-memory read
succeeds, so does the cached one, with the same bytes, whatever the history. -/
theorem C08_until_complete (f : List UInt8) (hf : f.length < U64) (h : List (Env × Op)) (env : Env)
    (hg : env.Good) (start stop : Nat) (d : UInt8) (x : List UInt8) (hx : x.length < 4096)
    (hr : ReadRef.readBytesAtUntil f start stop d = .ok x) :
    (readBytesAtUntil f env (after f h) start stop d).1 = .ok x := by
  obtain ⟨_, _, h3⟩ := readBytesAtUntil_result (env := env) (after_inv hf h) start stop d
  obtain ⟨a, b, c, e⟩ := (readBytesAtUntil_ok_iff ..).1 hr
  exact h3 x hg a b c e hx

/-- Exact agreement for delimited reads when no earlier delimited read with the same start and delimiter
used a larger end and the string to be found, if any, is shorter than 4096 bytes.
Both conditions are necessary: `C08_until_history_dependent` and `C08_until_limit`. -/
theorem C08_until_exact (f : List UInt8) (hf : f.length < U64) (h : List (Env × Op)) (env : Env)
    (hg : env.Good) (start stop : Nat) (d : UInt8) 
    (hlim : ∀ x, ReadRef.readBytesAtUntil f start stop d = .ok x → x.length < 4096)
    (hh : ∀ x ∈ h, ∀ stop', x.2.untilRange = some (start, stop', d) → stop' ≤ stop) :
    (readBytesAtUntil f env (after f h) start stop d).1 = ReadRef.readBytesAtUntil f start stop d := by
  have hi := after_inv hf h
  obtain ⟨h1, h2, h3⟩ := readBytesAtUntil_result (env := env) hi start stop d
  cases hr : ReadRef.readBytesAtUntil f start stop d with
  | ok x =>
    obtain ⟨a, b, c, e⟩ := (readBytesAtUntil_ok_iff ..).1 hr
    exact h3 x hg a b c e (hlim x hr)
  | panic => exact (readBytesAtUntil_ne_panic _ _ _ _ hr).elim
  | err =>
    cases hc : (readBytesAtUntil f env (after f h) start stop d).1 with
    | err => rfl
    | panic => exact absurd hc h2
    | ok x =>
      obtain ⟨a, b, c, e⟩ := h1 x hc
      have he : start + x.length < stop := by
        rcases e with e | e
        · exact e
        · obtain ⟨y, hy, st, hst, hlt⟩ := hi.hist _ _ _ e
          have := hh y hy st hst
          omega
      rw [(readBytesAtUntil_ok_iff ..).2 ⟨a, b, c, he⟩] at hr
      cases hr

example : ∀ x ∈ [((⟨true, true, true, true, fun _ => some 0⟩ : Env), Op.readUntil 1 3 0)], ∀ stop',
    x.2.untilRange = some (1, stop', 0) → stop' ≤ 4 := by
  intro x hx stop' h
  simp only [List.mem_singleton] at hx
  subst hx
  simp [Op.untilRange] at h
  omega

/-- A `ReadCacheRange` over `o .. o+s` reads strings inside the range like the slice of those bytes does:
every string found in memory (range inside `0..s`, shorter than 4096) is found, and every string
returned lies inside `0 ..= s` and is the string of the file at that position. -/
theorem C08_range_until (f : List UInt8) (hf : f.length < U64) (h : List (Env × Op)) (env : Env)
    (hg : env.Good) (o s start stop : Nat) (d : UInt8) (hos : o + s ≤ f.length) :
    (∀ x, x.length < 4096 → ReadRef.readBytesAtUntil ((f.drop o).take s) start stop d = .ok x →
      (rangeReadBytesAtUntil f env (after f h) o s start stop d).1 = .ok x) ∧
    (∀ x, (rangeReadBytesAtUntil f env (after f h) o s start stop d).1 = .ok x →
      start + x.length ≤ s ∧ ReadRef.readBytesAtUntil f (o + start) f.length d = .ok x) := by
  have hl : ((f.drop o).take s).length = s := by simp; omega
  constructor
  · intro x hx hr
    obtain ⟨a, b, ⟨suf, c1, c2⟩, e⟩ := (readBytesAtUntil_ok_iff ..).1 hr
    rw [hl] at b
    have hR : ReadsTo f (o + start) d x := by
      rw [List.drop_take, List.drop_drop] at c1
      refine ⟨suf ++ (f.drop (o + start)).drop (s - start), ?_, c2⟩
      conv => lhs; rw [← List.take_append_drop (s - start) (f.drop (o + start)), c1]
      simp
    have := C08_until_complete f hf h env hg (o + start) (o + stop) d x hx
      ((readBytesAtUntil_ok_iff ..).2 ⟨by omega, by omega, hR, by omega⟩)
    unfold rangeReadBytesAtUntil
    rw [if_neg (by omega), if_neg (by omega)]
    match hm : readBytesAtUntil f env (after f h) (o + start) (o + stop) d with
    | (r, c') =>
      rw [hm] at this
      dsimp only at this
      subst this
      dsimp only
      rw [if_neg (by omega), if_neg (by omega)]
  · intro x hx
    unfold rangeReadBytesAtUntil at hx
    by_cases h1 : U64 ≤ o + start
    · rw [if_pos h1] at hx; cases hx
    rw [if_neg h1] at hx
    by_cases h2 : U64 ≤ o + stop
    · rw [if_pos h2] at hx; cases hx
    rw [if_neg h2] at hx
    have hs := (C08_until_sound f hf h env (o + start) (o + stop) d).2
    match hm : readBytesAtUntil f env (after f h) (o + start) (o + stop) d with
    | (.ok y, c') =>
      rw [hm] at hx hs
      dsimp only at hx
      by_cases h3 : U64 ≤ start + y.length
      · rw [if_pos h3] at hx; cases hx
      rw [if_neg h3] at hx
      by_cases h4 : s < start + y.length
      · rw [if_pos h4] at hx; cases hx
      rw [if_neg h4] at hx
      simp only [Res.ok.injEq] at hx
      subst hx
      exact ⟨by omega, (hs y rfl).2.2⟩
    | (.err, c') => rw [hm] at hx; cases hx
    | (.panic, c') => rw [hm] at hx; cases hx

example : ReadRef.readBytesAtUntil (([9, 1, 2, 0, 5].drop 1).take 3) 0 3 0 = .ok [1, 2] := by decide

theorem untilLoop_once (f : List UInt8) (start mc k : Nat) (d : UInt8) (n : Nat)
    (hm : memchr d ((f.drop start).take (min (min 256 mc) (k + 1))) = some n) :
    untilLoop f ⟨true, true, true, true, fun _ => some k⟩ start mc d 0 [] =
      .ok (((f.drop start).take (min (min 256 mc) (k + 1))).take n) := by
  rw [untilLoop]
  dsimp only
  simp only [List.length_nil, Nat.add_zero, Nat.sub_zero, hm, List.nil_append, Nat.zero_add]
  rw [dif_neg]
  obtain ⟨pre, suf, h1, _, _⟩ := (memchr_some_iff ..).1 hm
  intro h
  have := congrArg List.length h1
  rw [h] at this
  simp at this

/-- The hit ignores the end of the range: after reading `0..3`, reading `0..1` returns a string although
no delimiter lies in `0..1`; the in-memory read fails.  (A finding: results depend on the history.) -/
theorem C08_until_history_dependent :
    ∃ (f : List UInt8) (env : Env) (h : List (Env × Op)), env.Good ∧
      (readBytesAtUntil f env (after f h) 0 1 0).1 = .ok [7, 8] ∧
      ReadRef.readBytesAtUntil f 0 1 0 = .err := by
  refine ⟨[7, 8, 0], ⟨true, true, true, true, fun _ => some 9⟩,
    [(⟨true, true, true, true, fun _ => some 9⟩, .readUntil 0 3 0)], by simp [Env.Good], ?_, by decide⟩
  have hl := untilLoop_once [7, 8, 0] 0 3 9 0 2 (by decide)
  simp only [after, List.foldl, step, readBytesAtUntil, rangeInBounds, getLen, new]
  simp only [List.length_cons, List.length_nil]
  simp [hl, assoc]

/-- Strings of 4096 bytes or more are refused even though the in-memory read returns them. -/
theorem C08_until_limit :
    ∃ (f x : List UInt8), ∀ (env : Env),
      (readBytesAtUntil f env new 0 f.length 0).1 = .err ∧
      ReadRef.readBytesAtUntil f 0 f.length 0 = .ok x := by
  let x : List UInt8 := List.replicate 4096 1
  have hx : (0 : UInt8) ∉ x := by
    intro h; have := List.eq_of_mem_replicate h; exact absurd this (by decide)
  have hxl : x.length = 4096 := List.length_replicate
  refine ⟨x ++ [0], x, fun env => ⟨?_, ?_⟩⟩
  · have hi := new_inv (x ++ [0])
    obtain ⟨h1, h2, _⟩ := readBytesAtUntil_result (env := env) hi 0 (x ++ [0]).length 0
    cases hr : (readBytesAtUntil (x ++ [0]) env new 0 (x ++ [0]).length 0).1 with
    | err => rfl
    | panic => exact absurd hr h2
    | ok y =>
      exfalso
      -- every success of a fresh read is shorter than the limit
      have key : y.length < 4096 := by
        unfold readBytesAtUntil at hr
        match hg : rangeInBounds (x ++ [0]) env new 0 (x ++ [0]).length with
        | (.ok (), c') =>
          have h3 := (rangeInBounds_spec (env := env) hi 0 (x ++ [0]).length).2.2.1
          rw [hg] at hr h3
          dsimp only at hr h3
          rw [h3] at hr
          simp only [new, assoc] at hr
          split at hr
          · obtain ⟨_, hso⟩ := untilLoop_sound (x ++ [0]) env 0 (min ((x ++ [0]).length - 0) 4096) 0 0 []
              (by simp) (by simp)
            cases hu : untilLoop (x ++ [0]) env 0 (min ((x ++ [0]).length - 0) 4096) 0 0 [] with
            | ok z =>
              rw [hu] at hr
              simp only [Res.ok.injEq] at hr
              subst hr
              have := (hso z hu).2
              omega
            | err => rw [hu] at hr; cases hr
            | panic => rw [hu] at hr; cases hr
          · cases hr
        | (.err, c') => rw [hg] at hr; cases hr
        | (.panic, c') => rw [hg] at hr; cases hr
      obtain ⟨_, _, ⟨suf, e1, e2⟩, _⟩ := h1 y hr
      have k1 := (memchr_some_iff 0 ((x ++ [0]).drop 0) y.length).2 ⟨_, _, e1, e2, rfl⟩
      have k2 := (memchr_some_iff 0 ((x ++ [0]).drop 0) x.length).2 ⟨x, [], rfl, hx, rfl⟩
      rw [k1, Option.some.injEq] at k2
      omega
  · refine (readBytesAtUntil_ok_iff ..).2 ⟨by omega, Nat.le_refl _, ⟨[], rfl, hx⟩, by simp⟩

/-- A `ReadCacheRange` does not check the end of a delimited read against its own size: a range ending
outside it is accepted and the delimiter may lie outside it. -/
theorem C08_range_until_end_unchecked :
    ∃ (f : List UInt8) (env : Env), env.Good ∧
      (rangeReadBytesAtUntil f env new 0 2 0 3 0).1 = .ok [7, 8] ∧
      ReadRef.readBytesAtUntil ((f.drop 0).take 2) 0 3 0 = .err := by
  refine ⟨[7, 8, 0], ⟨true, true, true, true, fun _ => some 9⟩, by simp [Env.Good], ?_, by decide⟩
  have hl := untilLoop_once [7, 8, 0] 0 3 9 0 2 (by decide)
  simp only [rangeReadBytesAtUntil, readBytesAtUntil, rangeInBounds, getLen, new]
  simp only [List.length_cons, List.length_nil]
  simp [hl, assoc]

end Obj.Props
