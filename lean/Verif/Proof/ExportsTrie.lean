import Verif.Spec.ExportsTrie
import Verif.Proof.Iter

namespace Obj.Trie
open Obj Obj.Spec Obj.Spec.Trie

theorem uleb_iff (d r : List UInt8) (v : Nat) : Bytes.readUleb d = (.ok v, r) ↔ Uleb d v r := readUleb_ok_iff d v r

theorem cstr_iff (d s r : List UInt8) : Bytes.readString d = (.ok s, r) ↔ CStr d s r := by
  constructor
  · intro h
    rcases readString_cases d with ⟨s', tl, h1, h2, h3⟩ | ⟨h1, h2⟩
    · rw [h3] at h
      simp only [Prod.mk.injEq, Res.ok.injEq] at h
      obtain ⟨rfl, rfl⟩ := h
      exact ⟨h1, h2⟩
    · rw [h2] at h; simp at h
  · rintro ⟨rfl, h⟩
    exact readString_append h

theorem readString_no_panic' (d : List UInt8) : (Bytes.readString d).1 ≠ .panic := by
  rcases readString_cases d with ⟨s', tl, h1, h2, h3⟩ | ⟨h1, h2⟩
  · rw [h3]; simp
  · rw [h2]; simp

private theorem known_iff : ∀ n : Nat, n < 2 ^ 64 → (n &&& (U64 - 1 - 0x3f) = 0 ↔ n < 64) := by
  intro n hn
  have h : n &&& (U64 - 1 - 0x3f) = 64 * (n / 64) := by
    apply Nat.eq_of_testBit_eq
    intro i
    rw [Nat.testBit_and, show (64:Nat) * (n/64) = 2 ^ 6 * (n / 2 ^ 6) by rfl, Nat.testBit_two_pow_mul, Nat.testBit_div_two_pow,
      show U64 - 1 - 0x3f = 2 ^ 6 * (2 ^ 58 - 1) by rfl, Nat.testBit_two_pow_mul, Nat.testBit_two_pow_sub_one]
    by_cases h6 : 6 ≤ i
    · simp only [h6, ge_iff_le, decide_true, Bool.true_and]
      rw [show i - 6 + 6 = i by omega]
      by_cases h64 : i < 64
      · simp [show i - 6 < 58 by omega]
      · rw [Nat.testBit_lt_two_pow (Nat.lt_of_lt_of_le hn (Nat.pow_le_pow_right (by omega) (by omega)))]
        simp
    · simp [h6]
  rw [h]; omega

private theorem bits : ∀ n : Fin 64, ((n.val &&& 0x08 = 0x08) ↔ n.val.testBit 3 = true) ∧
    ((n.val &&& 0x10 = 0x10) ↔ n.val.testBit 4 = true) := by decide +kernel

theorem uleb_det {d r1 r2 : List UInt8} {a b : Nat} (h1 : Uleb d a r1) (h2 : Uleb d b r2) : a = b ∧ r1 = r2 := by
  have h1 := (uleb_iff ..).2 h1
  have h2 := (uleb_iff ..).2 h2
  rw [h1] at h2
  simpa using h2

theorem parse_iff (d : List UInt8) (flags : Nat) (x : ExportData) :
    ExportData.parse d = .ok (flags, x) ↔ Terminal d flags x := by
  unfold ExportData.parse Terminal
  split
  · rename_i fl d1 hu
    have hU := (uleb_iff ..).1 hu
    have hlt := readUleb_lt hu
    by_cases hk : fl < 64
    · rw [if_neg (by rw [Ne, Classical.not_not, known_iff fl hlt]; exact hk)]
      obtain ⟨hb3, hb4⟩ := bits ⟨fl, hk⟩
      simp only at hb3 hb4
      have key : ∀ (P : Nat → List UInt8 → Prop), (∃ d1', Uleb d flags d1' ∧ P flags d1') ↔ (flags = fl ∧ P fl d1) := by
        intro P
        constructor
        · rintro ⟨d', h1, h2⟩
          obtain ⟨rfl, rfl⟩ := uleb_det h1 hU
          exact ⟨rfl, h2⟩
        · rintro ⟨rfl, h⟩
          exact ⟨d1, hU, h⟩
      rw [key fun flags d1 => (flags.testBit 3 = true ∧ ∃ ordinal name d2 d3, Uleb d1 ordinal d2 ∧ CStr d2 name d3 ∧ x = .reexport ordinal name) ∨
        (flags.testBit 3 = false ∧ flags.testBit 4 = true ∧
        ∃ stub resolver d2 d3, Uleb d1 stub d2 ∧ Uleb d2 resolver d3 ∧ x = .stubAndResolver stub resolver) ∨
        (flags.testBit 3 = false ∧ flags.testBit 4 = false ∧ ∃ address d2, Uleb d1 address d2 ∧ x = .regular address)]
      by_cases h3 : fl.testBit 3 = true
      · rw [if_pos (hb3.2 h3)]
        simp only [h3, true_and, Bool.true_eq_false, false_and, or_false]
        constructor
        · intro h
          split at h
          · rename_i ord d2 h1
            split at h
            · rename_i nm d3 h2
              simp only [Res.ok.injEq, Prod.mk.injEq] at h
              obtain ⟨rfl, rfl⟩ := h
              exact ⟨hk, rfl, _, _, _, _, (uleb_iff ..).1 h1, (cstr_iff ..).1 h2, rfl⟩
            · simp at h
            · simp at h
          · simp at h
          · simp at h
        · rintro ⟨-, rfl, ord, nm, d2, d3, h1, h2, rfl⟩
          rw [(uleb_iff ..).2 h1]
          simp only
          rw [(cstr_iff ..).2 h2]
      · rw [if_neg (fun h => h3 (hb3.1 h))]
        have h3 : fl.testBit 3 = false := by simpa using h3
        by_cases h4 : fl.testBit 4 = true
        · rw [if_pos (hb4.2 h4)]
          simp only [h3, h4, true_and, Bool.true_eq_false, Bool.false_eq_true, false_and, or_false, false_or]
          constructor
          · intro h
            split at h
            · rename_i ord d2 h1
              split at h
              · rename_i nm d3 h2
                simp only [Res.ok.injEq, Prod.mk.injEq] at h
                obtain ⟨rfl, rfl⟩ := h
                exact ⟨hk, rfl, _, _, _, _, (uleb_iff ..).1 h1, (uleb_iff ..).1 h2, rfl⟩
              · simp at h
              · simp at h
            · simp at h
            · simp at h
          · rintro ⟨-, rfl, ord, nm, d2, d3, h1, h2, rfl⟩
            rw [(uleb_iff ..).2 h1]
            simp only
            rw [(uleb_iff ..).2 h2]
        · rw [if_neg (fun h => h4 (hb4.1 h))]
          have h4 : fl.testBit 4 = false := by simpa using h4
          simp only [h3, h4, true_and, Bool.false_eq_true, false_and, false_or]
          constructor
          · intro h
            split at h
            · rename_i ord d2 h1
              simp only [Res.ok.injEq, Prod.mk.injEq] at h
              obtain ⟨rfl, rfl⟩ := h
              exact ⟨hk, rfl, _, _, (uleb_iff ..).1 h1, rfl⟩
            · simp at h
            · simp at h
          · rintro ⟨-, rfl, ad, d2, h1, rfl⟩
            rw [(uleb_iff ..).2 h1]
    · rw [if_pos (by rw [Ne, known_iff fl hlt]; exact hk)]
      simp only [reduceCtorEq, false_iff, not_and]
      rintro hk2 ⟨d', h1, -⟩
      obtain ⟨rfl, -⟩ := uleb_det h1 hU
      exact hk hk2
  · rename_i hu
    simp only [reduceCtorEq, false_iff, not_and]
    rintro - ⟨d', h1, -⟩
    rw [(uleb_iff ..).2 h1] at hu; simp at hu
  · rename_i hu
    simp only [reduceCtorEq, false_iff, not_and]
    rintro - ⟨d', h1, -⟩
    rw [(uleb_iff ..).2 h1] at hu; simp at hu

theorem parse_no_panic (d : List UInt8) : ExportData.parse d ≠ .panic := by
  unfold ExportData.parse
  have hu := readUleb_no_panic
  have hs := readString_no_panic'
  split
  · split
    · simp
    · repeat' split
      all_goals first | simp | skip
      all_goals (rename_i h; first | exact absurd (congrArg Prod.fst h) (hu _) | exact absurd (congrArg Prod.fst h) (hs _))
  · simp
  · rename_i h; have := hu d; rw [h] at this; exact absurd rfl this

private theorem read1 (d : List UInt8) : Bytes.read d 1 = (match d with | [] => (.err, []) | c :: tl => (.ok [c], tl)) := by
  cases d <;> simp [Bytes.read, Bytes.readBytes]

theorem readNode_iff (data : List UInt8) (off : Nat) (term : Option (Nat × ExportData)) (count : Nat) (edges : List UInt8) :
    readNode data off = .ok (term, count, edges) ↔ NodeAt data off term count edges := by
  have hrest : ∀ (tm : Option (Nat × ExportData)) (d : List UInt8),
      ((match Bytes.read d 1 with
        | (.ok c, d) => (.ok (tm, (c.headD 0).toNat, d) : Res (Option (Nat × ExportData) × Nat × List UInt8))
        | (.err, _) => .err
        | (.panic, _) => .panic) = .ok (term, count, edges)) ↔ (tm = term ∧ ∃ c, d = c :: edges ∧ c.toNat = count) := by
    intro tm d
    rw [read1]
    cases d with
    | nil => simp
    | cons c tl =>
      simp only [List.headD_cons, Res.ok.injEq, Prod.mk.injEq, List.cons.injEq]
      constructor
      · rintro ⟨h1, h2, h3⟩; exact ⟨h1, c, ⟨rfl, h3⟩, h2⟩
      · rintro ⟨h1, c', ⟨rfl, h3⟩, h2⟩; exact ⟨h1, h2, h3⟩
  constructor
  · intro h
    unfold readNode at h
    split at h
    · simp at h
    · rename_i hlen
      split at h
      · rename_i size d1 hu
        have hU := (uleb_iff ..).1 hu
        simp only at h
        split at h
        · rename_i hs
          obtain ⟨rfl, c, hd, hc⟩ := (hrest _ _).1 h
          exact ⟨data.take off, data.drop off, size, d1, d1, c, by simp, by simp; omega, hU, .inl ⟨hs, rfl, rfl⟩, hd, hc⟩
        · rename_i hs
          split at h
          · rename_i t d2 hb
            cases hp : ExportData.parse t with
            | err => rw [hp] at h; simp at h
            | panic => rw [hp] at h; simp at h
            | ok y =>
              rw [hp] at h
              simp only [Res.ok_bind] at h
              obtain ⟨rfl, c, hd, hc⟩ := (hrest _ _).1 h
              unfold Bytes.readBytes at hb
              split at hb
              · rename_i hle
                simp only [Prod.mk.injEq, Res.ok.injEq] at hb
                obtain ⟨rfl, rfl⟩ := hb
                exact ⟨data.take off, data.drop off, size, d1, _, c, by simp, by simp; omega, hU,
                  .inr ⟨hs, d1.take size, y.1, y.2, by simp, by simp; omega, (parse_iff ..).1 hp, rfl⟩, hd, hc⟩
              · simp at hb
          · simp at h
          · simp at h
      · simp at h
      · simp at h
  · rintro ⟨pre, body, size, d1, d2, c, rfl, rfl, hU, hc, hd, hn⟩
    unfold readNode
    rw [if_neg (by simp), List.drop_left, (uleb_iff ..).2 hU]
    simp only
    rcases hc with ⟨rfl, rfl, rfl⟩ | ⟨hs, t, fl, x, rfl, rfl, ht, rfl⟩
    · rw [if_pos rfl]; exact (hrest _ _).2 ⟨rfl, c, hd, hn⟩
    · rw [if_neg hs]
      have : Bytes.readBytes (t ++ d2) t.length = (.ok t, d2) := by simp [Bytes.readBytes]
      rw [this]
      simp only
      rw [(parse_iff ..).2 ht]
      exact (hrest _ _).2 ⟨rfl, c, hd, hn⟩

theorem readNode_no_panic (data : List UInt8) (off : Nat) : readNode data off ≠ .panic := by
  unfold readNode
  have hrest : ∀ (tm : Option (Nat × ExportData)) (d : List UInt8),
      (match Bytes.read d 1 with
        | (.ok c, d) => (.ok (tm, (c.headD 0).toNat, d) : Res (Option (Nat × ExportData) × Nat × List UInt8))
        | (.err, _) => .err
        | (.panic, _) => .panic) ≠ .panic := by
    intro tm d
    rw [read1]
    cases d <;> simp
  split
  · simp
  · split
    · simp only
      split
      · exact hrest _ _
      · split
        · rename_i t d2 hb
          cases hp : ExportData.parse t with
          | err => simp
          | panic => exact absurd hp (parse_no_panic _)
          | ok y => exact hrest _ _
        · simp
        · rename_i hb
          unfold Bytes.readBytes at hb
          split at hb <;> simp at hb
    · simp
    · rename_i h; have := readUleb_no_panic (data.drop off); rw [h] at this; exact absurd rfl this

/-! ### One step -/

theorem next_some {it it' : NodeIter} {o : Option ExportSymbol} (h : it.next = (.ok (some o), it')) :
    next it = match o with
      | some x => (.ok (some x), it')
      | none => next it' := by
  rw [next]
  split <;> rename_i h2 <;> rw [h] at h2 <;> simp only [Prod.mk.injEq, Res.ok.injEq, Option.some.injEq, reduceCtorEq, false_and] at h2
  all_goals (obtain ⟨rfl, rfl⟩ := h2; rfl)

theorem next_none {it it' : NodeIter} (h : it.next = (.ok none, it')) : next it = (.ok none, it') := by
  rw [next]; split <;> simp_all

theorem next_err {it it' : NodeIter} (h : it.next = (.err, it')) : next it = (.err, it') := by
  rw [next]; split <;> simp_all

theorem next_panic {it it' : NodeIter} (h : it.next = (.panic, it')) : next it = (.panic, it') := by
  rw [next]; split <;> simp_all

theorem runs_congr {s s' : NodeIter} {xs : List ExportSymbol} {e : End} (h : s.next = s'.next) (hr : Runs next s xs e) :
    Runs next s' xs e := by
  have hn : next s = next s' := by rw [next, next, h]
  cases hr with
  | done h1 => exact .done (hn ▸ h1)
  | err h1 => exact .err (hn ▸ h1)
  | panic h1 => exact .panic (hn ▸ h1)
  | item h1 h2 => exact .item (hn ▸ h1) h2

theorem runs_step {it it' : NodeIter} {o : Option ExportSymbol} (h : it.next = (.ok (some o), it')) (xs : List ExportSymbol)
    (e : End) : Runs next it xs e ↔ ∃ zs, xs = o.toList ++ zs ∧ Runs next it' zs e := by
  have hn := next_some h
  cases o with
  | none =>
    simp only at hn
    simp only [Option.toList_none, List.nil_append]
    constructor
    · intro hr
      refine ⟨xs, rfl, ?_⟩
      cases hr with
      | done h1 => exact .done (hn ▸ h1)
      | err h1 => exact .err (hn ▸ h1)
      | panic h1 => exact .panic (hn ▸ h1)
      | item h1 h2 => exact .item (hn ▸ h1) h2
    · rintro ⟨zs, rfl, hr⟩
      cases hr with
      | done h1 => exact .done (hn.symm ▸ h1)
      | err h1 => exact .err (hn.symm ▸ h1)
      | panic h1 => exact .panic (hn.symm ▸ h1)
      | item h1 h2 => exact .item (hn.symm ▸ h1) h2
  | some x =>
    simp only at hn
    simp only [Option.toList_some, List.cons_append, List.nil_append]
    constructor
    · intro hr
      cases hr with
      | done h1 => rw [hn] at h1; simp at h1
      | err h1 => rw [hn] at h1; simp at h1
      | panic h1 => rw [hn] at h1; simp at h1
      | item h1 h2 =>
        rw [hn] at h1
        simp only [Prod.mk.injEq, Res.ok.injEq, Option.some.injEq] at h1
        obtain ⟨rfl, rfl⟩ := h1
        exact ⟨_, rfl, h2⟩
    · rintro ⟨zs, rfl, hr⟩
      exact .item hn hr

/-- The state in the middle of a traversal. -/
def St (data : List UInt8) (fs : List Frame) (nb : List UInt8) : NodeIter := ⟨data, false, fs, nb⟩

theorem next_St (data : List UInt8) (fs : List Frame) (nb : List UInt8) : (St data fs nb).next = nodeLoop data fs nb := rfl

theorem loop_pop (data : List UInt8) (f : Frame) (fs : List Frame) (nb : List UInt8) (h : f.childrenRemaining = 0) :
    nodeLoop data (f :: fs) nb = nodeLoop data fs (nb.take f.nameBufLen) := by
  rw [nodeLoop]; exact if_pos h

/-- The item and state produced by entering a node. -/
def item (name : List UInt8) (term : Option (Nat × ExportData)) : Option ExportSymbol := term.map fun x => ⟨name, x.1, x.2⟩

theorem item_toList (name : List UInt8) (term : Option (Nat × ExportData)) : (item name term).toList = symbols name term := by
  cases term with
  | none => rfl
  | some x => rfl

theorem push_ok {data : List UInt8} {fs : List Frame} {nb : List UInt8} {off count : Nat} {term : Option (Nat × ExportData)}
    {edges : List UInt8} (h : NodeAt data off term count edges) :
    (St data fs nb).pushNode off = (.ok (some (item nb term)), St data (⟨edges, off, count, nb.length⟩ :: fs) nb) := by
  unfold NodeIter.pushNode
  rw [show (St data fs nb).data = data from rfl, (readNode_iff ..).2 h]
  rfl

theorem push_cases (data : List UInt8) (fs : List Frame) (nb : List UInt8) (off : Nat) :
    (∃ term count edges, NodeAt data off term count edges ∧
      (St data fs nb).pushNode off = (.ok (some (item nb term)), St data (⟨edges, off, count, nb.length⟩ :: fs) nb)) ∨
    (St data fs nb).pushNode off = (.err, St data fs nb) := by
  match h : readNode data off with
  | .ok (term, count, edges) =>
    have := (readNode_iff ..).1 h
    exact .inl ⟨term, count, edges, this, push_ok this⟩
  | .err =>
    right
    unfold NodeIter.pushNode
    rw [show (St data fs nb).data = data from rfl, h]
  | .panic => exact absurd h (readNode_no_panic _ _)

/-- All the outcomes of the loop, when a frame has children left. -/
theorem loop_cases (data : List UInt8) (f : Frame) (fs : List Frame) (nb : List UInt8) (h : f.childrenRemaining ≠ 0) :
    (∃ label child d1 d2 term count edges, CStr f.data label d1 ∧ Uleb d1 child d2 ∧ child ∉ f.offset :: fs.map (·.offset) ∧
      NodeAt data child term count edges ∧
      nodeLoop data (f :: fs) nb = (.ok (some (item (nb.take f.nameBufLen ++ label) term)),
        St data (⟨edges, child, count, (nb.take f.nameBufLen ++ label).length⟩ ::
          ⟨d2, f.offset, f.childrenRemaining - 1, f.nameBufLen⟩ :: fs) (nb.take f.nameBufLen ++ label))) ∨
    (∃ d r nb', nodeLoop data (f :: fs) nb = (.err, St data (⟨d, f.offset, r, f.nameBufLen⟩ :: fs) nb')) := by
  rw [nodeLoop]
  simp only
  rw [if_neg h]
  match hs : Bytes.readString f.data with
  | (.err, d) => exact .inr ⟨_, _, _, rfl⟩
  | (.panic, d) => have := readString_no_panic' f.data; rw [hs] at this; exact absurd rfl this
  | (.ok label, d1) =>
    simp only
    match hu : Bytes.readUleb d1 with
    | (.err, d) => exact .inr ⟨_, _, _, rfl⟩
    | (.panic, d) => have := readUleb_no_panic d1; rw [hu] at this; exact absurd rfl this
    | (.ok child, d2) =>
      simp only
      split
      · exact .inr ⟨_, _, _, rfl⟩
      · rename_i hany
        rcases push_cases data (⟨d2, f.offset, f.childrenRemaining - 1, f.nameBufLen⟩ :: fs) (nb.take f.nameBufLen ++ label) child with
          ⟨term, count, edges, h1, h2⟩ | h2
        · refine .inl ⟨label, child, d1, d2, term, count, edges, (cstr_iff ..).1 hs, (uleb_iff ..).1 hu, ?_, h1, h2⟩
          simp only [List.any_cons, Bool.or_eq_true, decide_eq_true_eq, List.any_eq_true, not_or, not_exists, not_and] at hany
          simp only [List.mem_cons, List.mem_map, not_or, not_exists, not_and]
          exact ⟨fun hc => hany.1 hc.symm, fun g hg hc => hany.2 g hg hc⟩
        · exact .inr ⟨_, _, _, h2⟩

theorem loop_push {data : List UInt8} {f : Frame} {fs : List Frame} {nb label d1 d2 : List UInt8} {child count : Nat}
    {term : Option (Nat × ExportData)} {edges : List UInt8} (h : f.childrenRemaining ≠ 0)
    (h1 : CStr f.data label d1) (h2 : Uleb d1 child d2) (h3 : child ∉ f.offset :: fs.map (·.offset))
    (h4 : NodeAt data child term count edges) :
    nodeLoop data (f :: fs) nb = (.ok (some (item (nb.take f.nameBufLen ++ label) term)),
        St data (⟨edges, child, count, (nb.take f.nameBufLen ++ label).length⟩ ::
          ⟨d2, f.offset, f.childrenRemaining - 1, f.nameBufLen⟩ :: fs) (nb.take f.nameBufLen ++ label)) := by
  rw [nodeLoop]
  simp only
  rw [if_neg h, (cstr_iff ..).2 h1]
  simp only
  rw [(uleb_iff ..).2 h2]
  simp only
  rw [if_neg]
  · exact push_ok h4
  · simp only [List.any_cons, Bool.or_eq_true, decide_eq_true_eq, List.any_eq_true, not_or, not_exists, not_and]
    simp only [List.mem_cons, List.mem_map, not_or, not_exists, not_and] at h3
    exact ⟨fun hc => h3.1 hc.symm, fun g hg hc => h3.2 g hg hc⟩

/-! ### Completeness -/

theorem sub_complete {data : List UInt8} {path : List Nat} {off : Nat} {name : List UInt8} {xs : List ExportSymbol}
    (h : Subtrie data path off name xs) : ∀ (fs : List Frame) (ys : List ExportSymbol) (e : End), path = fs.map (·.offset) →
    (∀ nb, name <+: nb → Runs next (St data fs nb) ys e) →
    ∃ term count edges, off ∉ path ∧ NodeAt data off term count edges ∧ ∃ zs,
      Runs next (St data (⟨edges, off, count, name.length⟩ :: fs) name) zs e ∧ symbols name term ++ zs = xs ++ ys := by
  refine Subtrie.rec (motive_1 := fun path off name xs _ => ∀ (fs : List Frame) (ys : List ExportSymbol) (e : End),
      path = fs.map (·.offset) → (∀ nb, name <+: nb → Runs next (St data fs nb) ys e) →
      ∃ term count edges, off ∉ path ∧ NodeAt data off term count edges ∧ ∃ zs,
        Runs next (St data (⟨edges, off, count, name.length⟩ :: fs) name) zs e ∧ symbols name term ++ zs = xs ++ ys)
    (motive_2 := fun path name es xs _ => ∀ (off : Nat) (fs : List Frame) (d rest : List UInt8)
      (ys : List ExportSymbol) (e : End), path = off :: fs.map (·.offset) → EdgesAt d es rest →
      (∀ nb, name <+: nb → Runs next (St data fs nb) ys e) → ∀ (nb : List UInt8), name <+: nb →
      Runs next (St data (⟨d, off, es.length, name.length⟩ :: fs) nb) (xs ++ ys) e) ?_ ?_ ?_ h
  · intro path off name term edges rest es xs hoff hn he hc ih fs ys e hp K
    refine ⟨term, es.length, edges, hoff, hn, xs ++ ys, ?_, by simp⟩
    exact ih off fs edges rest ys e (by rw [hp]) he K name (List.prefix_refl _)
  · intro path name off fs d rest ys e hp he K nb hnb
    have htake : nb.take name.length = name := (List.prefix_iff_eq_take.1 hnb).symm
    have := K name (List.prefix_refl _)
    refine runs_congr ?_ this
    rw [next_St, next_St, loop_pop _ _ _ _ rfl]
    simp only
    rw [htake]
  · intro path name label child es xs1 xs2 hs hc ih1 ih2 off fs d rest ys e hp he K nb hnb
    have htake : nb.take name.length = name := (List.prefix_iff_eq_take.1 hnb).symm
    obtain ⟨d1, d2, h1, h2, h3⟩ := he
    obtain ⟨term, count, edges, hoff, hn, zs, hz, heq⟩ := ih1 (⟨d2, off, es.length, name.length⟩ :: fs) (xs2 ++ ys) e
      (by rw [hp]; rfl)
      (fun nb hpre => ih2 off fs d2 rest ys e hp h3 K nb
        (List.IsPrefix.trans (List.prefix_append _ _) hpre))
    have hstep := loop_push (data := data) (f := ⟨d, off, es.length + 1, name.length⟩) (fs := fs) (nb := nb)
      (by simp) h1 h2 (by rw [← hp]; exact hoff) hn
    simp only [htake] at hstep
    rw [List.length_cons]
    refine (runs_step (it := St data (⟨d, off, es.length + 1, name.length⟩ :: fs) nb) hstep _ _).2 ⟨zs, ?_, hz⟩
    rw [item_toList, heq, List.append_assoc]

/-! ### Soundness -/

/-- The lengths on the stack are consistent with the name. -/
def Wf : List Frame → List UInt8 → Prop
  | [], _ => True
  | f :: fs, nb => f.nameBufLen ≤ nb.length ∧ Wf fs (nb.take f.nameBufLen)

/-- The unvisited part of the trie has the symbols `xs`. -/
def Conf (data : List UInt8) : List Frame → List UInt8 → List ExportSymbol → Prop
  | [], _, xs => xs = []
  | f :: fs, nb, xs => ∃ es rest xs1 xs2, es.length = f.childrenRemaining ∧ EdgesAt f.data es rest ∧
      Children data (f.offset :: fs.map (·.offset)) (nb.take f.nameBufLen) es xs1 ∧ Conf data fs (nb.take f.nameBufLen) xs2 ∧
      xs = xs1 ++ xs2

theorem loop_none {data : List UInt8} {fs : List Frame} {nb : List UInt8} {it' : NodeIter}
    (h : nodeLoop data fs nb = (.ok none, it')) : Conf data fs nb [] := by
  induction fs generalizing nb with
  | nil => rfl
  | cons f fs ih =>
    by_cases hr : f.childrenRemaining = 0
    · rw [loop_pop _ _ _ _ hr] at h
      exact ⟨[], f.data, [], [], by rw [hr]; rfl, rfl, .nil, ih h, rfl⟩
    · rcases loop_cases data f fs nb hr with ⟨_, _, _, _, _, _, _, -, -, -, -, h1⟩ | ⟨_, _, _, h1⟩ <;> rw [h1] at h <;> simp at h

theorem loop_some {data : List UInt8} {fs : List Frame} {nb : List UInt8} {it' : NodeIter} {o : Option ExportSymbol}
    (h : nodeLoop data fs nb = (.ok (some o), it')) (hw : Wf fs nb) :
    ∃ fs' nb', it' = St data fs' nb' ∧ Wf fs' nb' ∧ ∀ zs, Conf data fs' nb' zs → Conf data fs nb (o.toList ++ zs) := by
  induction fs generalizing nb with
  | nil => simp [nodeLoop] at h
  | cons f fs ih =>
    by_cases hr : f.childrenRemaining = 0
    · rw [loop_pop _ _ _ _ hr] at h
      obtain ⟨fs', nb', h1, h2, h3⟩ := ih h hw.2
      exact ⟨fs', nb', h1, h2, fun zs hz => ⟨[], f.data, [], _, by rw [hr]; rfl, rfl, .nil, h3 zs hz, rfl⟩⟩
    · rcases loop_cases data f fs nb hr with ⟨label, child, d1, d2, term, count, edges, c1, c2, c3, c4, h1⟩ | ⟨_, _, _, h1⟩
      · rw [h1] at h
        simp only [Prod.mk.injEq, Res.ok.injEq, Option.some.injEq] at h
        obtain ⟨rfl, rfl⟩ := h
        have hlen : (nb.take f.nameBufLen).length = f.nameBufLen := by rw [List.length_take]; have := hw.1; omega
        have ht : (nb.take f.nameBufLen ++ label).take f.nameBufLen = nb.take f.nameBufLen := by
          rw [List.take_append_of_le_length (by omega)]
          exact List.take_of_length_le (by omega)
        refine ⟨_, _, rfl, ⟨Nat.le_refl _, ?_⟩, ?_⟩
        · rw [List.take_length]
          refine ⟨?_, ?_⟩
          · show f.nameBufLen ≤ _
            rw [List.length_append]; omega
          · show Wf fs ((nb.take f.nameBufLen ++ label).take f.nameBufLen)
            rw [ht]; exact hw.2
        · rintro zs ⟨es, rest, xs1, xs2, g1, g2, g3, ⟨es', rest', xs3, xs4, g4, g5, g6, g7, rfl⟩, rfl⟩
          simp only at g1 g2 g3 g4 g5 g6 g7
          rw [List.take_length] at g3 g6 g7
          rw [ht] at g6 g7
          refine ⟨(label, child) :: es', rest', symbols (nb.take f.nameBufLen ++ label) term ++ xs1 ++ xs3, xs4, by simp; omega,
            ⟨d1, d2, c1, c2, g5⟩, ?_, g7, ?_⟩
          · refine .cons (.node c3 ?_ g2 ?_) g6
            · rw [g1]; exact c4
            · exact g3
          · rw [item_toList]; simp
      · rw [h1] at h; simp at h

theorem sound {data : List UInt8} (n : Nat) (fs : List Frame) (nb : List UInt8) (hn : (St data fs nb).measure = n) (hw : Wf fs nb)
    (xs : List ExportSymbol) (h : Runs next (St data fs nb) xs .done) : Conf data fs nb xs := by
  induction n using Nat.strongRecOn generalizing fs nb xs with
  | _ n ih =>
    match hnx : (St data fs nb).next with
    | (.ok none, it') =>
      have := (Runs.unique h (.done (next_none hnx))).1
      subst this
      exact loop_none hnx
    | (.ok (some o), it') =>
      obtain ⟨zs, rfl, hz⟩ := (runs_step hnx xs .done).1 h
      obtain ⟨fs', nb', rfl, hw', hc⟩ := loop_some hnx hw
      exact hc zs (ih _ (by rw [← hn]; exact next_measure hnx) fs' nb' rfl hw' zs hz)
    | (.err, it') => have := (Runs.unique h (.err (next_err hnx))).2; simp at this
    | (.panic, it') => have := (Runs.unique h (.panic (next_panic hnx))).2; simp at this

/-! ### What is visited -/

/-- Each frame is a node on a path from the root. -/
def RInv (data : List UInt8) : List Frame → List UInt8 → Prop
  | [], _ => True
  | f :: fs, nb => f.nameBufLen ≤ nb.length ∧ (∃ term count edges es, Reach data (fs.map (·.offset)) f.offset (nb.take f.nameBufLen) ∧
      NodeAt data f.offset term count edges ∧ EdgesAt edges es f.data ∧ es.length + f.childrenRemaining = count) ∧
      RInv data fs (nb.take f.nameBufLen)

theorem edges_snoc {d d1 d2 d3 label : List UInt8} {child : Nat} {es : List (List UInt8 × Nat)} (h : EdgesAt d es d1)
    (h1 : CStr d1 label d2) (h2 : Uleb d2 child d3) : EdgesAt d (es ++ [(label, child)]) d3 := by
  induction es generalizing d with
  | nil => cases h; exact ⟨_, _, h1, h2, rfl⟩
  | cons x es ih =>
    obtain ⟨a, b, h3, h4, h5⟩ := h
    exact ⟨a, b, h3, h4, ih h5⟩

theorem loop_reach {data : List UInt8} {fs : List Frame} {nb : List UInt8} {it' : NodeIter} {o : Option ExportSymbol}
    (h : nodeLoop data fs nb = (.ok (some o), it')) (hw : RInv data fs nb) :
    ∃ fs' nb', it' = St data fs' nb' ∧ RInv data fs' nb' ∧ ∀ x ∈ o.toList, ∃ path off count edges,
      Reach data path off x.name ∧ NodeAt data off (some (x.flags, x.data)) count edges := by
  induction fs generalizing nb with
  | nil => simp [nodeLoop] at h
  | cons f fs ih =>
    by_cases hr : f.childrenRemaining = 0
    · rw [loop_pop _ _ _ _ hr] at h
      exact ih h hw.2.2
    · rcases loop_cases data f fs nb hr with ⟨label, child, d1, d2, term, count, edges, c1, c2, c3, c4, h1⟩ | ⟨_, _, _, h1⟩
      · rw [h1] at h
        simp only [Prod.mk.injEq, Res.ok.injEq, Option.some.injEq] at h
        obtain ⟨rfl, rfl⟩ := h
        obtain ⟨hle, ⟨tm, cnt, eds, es, g1, g2, g3, g4⟩, hw3⟩ := hw
        have hlen : (nb.take f.nameBufLen).length = f.nameBufLen := by rw [List.length_take]; omega
        have ht : (nb.take f.nameBufLen ++ label).take f.nameBufLen = nb.take f.nameBufLen := by
          rw [List.take_append_of_le_length (by omega)]
          exact List.take_of_length_le (by omega)
        have hsn := edges_snoc g3 c1 c2
        have hreach : Reach data (f.offset :: fs.map (·.offset)) child (nb.take f.nameBufLen ++ label) :=
          .edge g1 g2 (by omega) hsn c3
        refine ⟨_, _, rfl, ⟨Nat.le_refl _, ?_, ?_⟩, ?_⟩
        · rw [List.take_length]
          exact ⟨term, count, edges, [], hreach, c4, rfl, by simp⟩
        · rw [List.take_length]
          refine ⟨by show f.nameBufLen ≤ _; rw [List.length_append]; omega, ?_, ?_⟩
          · show ∃ term count edges es, Reach data (fs.map (·.offset)) f.offset ((nb.take f.nameBufLen ++ label).take f.nameBufLen) ∧ _
            rw [ht]
            exact ⟨tm, cnt, eds, _, g1, g2, hsn, by simp; omega⟩
          · show RInv data fs ((nb.take f.nameBufLen ++ label).take f.nameBufLen)
            rw [ht]; exact hw3
        · intro x hx
          cases term with
          | none => simp [item] at hx
          | some y =>
            simp only [item, Option.map_some, Option.toList_some, List.mem_singleton] at hx
            subst hx
            exact ⟨_, _, count, edges, hreach, c4⟩
      · rw [h1] at h; simp at h

theorem reach_runs {data : List UInt8} (n : Nat) (fs : List Frame) (nb : List UInt8) (hn : (St data fs nb).measure = n)
    (hw : RInv data fs nb) (xs : List ExportSymbol) (e : End) (h : Runs next (St data fs nb) xs e) :
    ∀ x ∈ xs, ∃ path off count edges, Reach data path off x.name ∧ NodeAt data off (some (x.flags, x.data)) count edges := by
  induction n using Nat.strongRecOn generalizing fs nb xs with
  | _ n ih =>
    match hnx : (St data fs nb).next with
    | (.ok none, it') =>
      have := (Runs.unique h (.done (next_none hnx))).1
      subst this
      simp
    | (.ok (some o), it') =>
      obtain ⟨zs, rfl, hz⟩ := (runs_step hnx xs e).1 h
      obtain ⟨fs', nb', rfl, hw', hc⟩ := loop_reach hnx hw
      intro x hx
      rw [List.mem_append] at hx
      rcases hx with hx | hx
      · exact hc x hx
      · exact ih _ (by rw [← hn]; exact next_measure hnx) fs' nb' rfl hw' zs hz x hx
    | (.err, it') => have := (Runs.unique h (.err (next_err hnx))).1; subst this; simp
    | (.panic, it') => have := (Runs.unique h (.panic (next_panic hnx))).1; subst this; simp

theorem NodeAt.lt {data : List UInt8} {off count : Nat} {term : Option (Nat × ExportData)} {edges : List UInt8}
    (h : NodeAt data off term count edges) : off < data.length := (readNode_lt ((readNode_iff ..).2 h)).1

theorem Reach.nodup {data : List UInt8} {path : List Nat} {off : Nat} {name : List UInt8} (h : Reach data path off name) :
    (off :: path).Nodup ∧ ∀ o ∈ path, o < data.length := by
  induction h with
  | root => simp
  | edge h1 h2 h3 h4 h5 ih =>
    refine ⟨List.nodup_cons.2 ⟨h5, ih.1⟩, ?_⟩
    intro o ho
    rw [List.mem_cons] at ho
    rcases ho with rfl | ho
    · exact NodeAt.lt h2
    · exact ih.2 o ho

theorem nodup_length_le (n : Nat) (l : List Nat) (h : l.Nodup) (hb : ∀ a ∈ l, a < n) : l.length ≤ n := by
  induction n generalizing l with
  | zero =>
    cases l with
    | nil => simp
    | cons a l => exact absurd (hb a (by simp)) (by omega)
  | succ n ih =>
    by_cases hm : n ∈ l
    · have := ih (l.erase n) (h.erase n) (fun a ha => by
        have h1 := hb a (List.mem_of_mem_erase ha)
        have h2 : a ≠ n := fun hc => by
          subst hc
          exact (List.Nodup.mem_erase_iff h).1 ha |>.1 rfl
        omega)
      rw [List.length_erase_of_mem hm] at this
      omega
    · have := ih l h (fun a ha => by
        have h1 := hb a ha
        have h2 : a ≠ n := fun hc => hm (hc ▸ ha)
        omega)
      omega

/-! ### Bounds that hold after errors too -/

/-- No node is twice on the stack. -/
def Bnd (it : NodeIter) : Prop := (it.stack.map (·.offset)).Nodup ∧ ∀ f ∈ it.stack, f.offset < it.data.length

theorem loop_bnd {data : List UInt8} {fs : List Frame} {nb : List UInt8} (h : Bnd (St data fs nb)) :
    Bnd (nodeLoop data fs nb).2 ∧ (nodeLoop data fs nb).2.data = data ∧ (nodeLoop data fs nb).1 ≠ .panic := by
  induction fs generalizing nb with
  | nil => exact ⟨h, rfl, by simp [nodeLoop]⟩
  | cons f fs ih =>
    obtain ⟨h1, h2⟩ := h
    simp only [St, List.map_cons, List.nodup_cons, List.mem_cons, forall_eq_or_imp] at h1 h2
    by_cases hr : f.childrenRemaining = 0
    · rw [loop_pop _ _ _ _ hr]
      exact ih ⟨h1.2, h2.2⟩
    · rcases loop_cases data f fs nb hr with ⟨label, child, d1, d2, term, count, edges, c1, c2, c3, c4, h3⟩ | ⟨_, _, _, h3⟩
      · rw [h3]
        refine ⟨⟨?_, ?_⟩, rfl, by simp⟩
        · simp only [St, List.map_cons, List.nodup_cons]
          exact ⟨c3, h1⟩
        · simp only [St, List.mem_cons, forall_eq_or_imp]
          exact ⟨NodeAt.lt c4, h2.1, h2.2⟩
      · rw [h3]
        refine ⟨⟨?_, ?_⟩, rfl, by simp⟩
        · simp only [St, List.map_cons, List.nodup_cons]
          exact h1
        · simp only [St, List.mem_cons, forall_eq_or_imp]
          exact h2

theorem next_bnd' {it : NodeIter} (h : Bnd it) (hf : it.first = true → it.stack = []) :
    Bnd it.next.2 ∧ it.next.2.data = it.data ∧ it.next.1 ≠ .panic ∧ it.next.2.first = false := by
  obtain ⟨data, first, fs, nb⟩ := it
  cases first with
  | false =>
    have := loop_bnd (data := data) (nb := nb) (fs := fs) h
    refine ⟨this.1, this.2.1, this.2.2, ?_⟩
    show (nodeLoop data fs nb).2.first = false
    clear this h hf
    induction fs generalizing nb with
    | nil => rfl
    | cons f fs ih =>
      by_cases hr : f.childrenRemaining = 0
      · rw [loop_pop _ _ _ _ hr]; exact ih _
      · rcases loop_cases data f fs nb hr with ⟨label, child, d1, d2, term, count, edges, c1, c2, c3, c4, h3⟩ | ⟨_, _, _, h3⟩ <;>
          rw [h3] <;> rfl
  | true =>
    have hfs := hf rfl
    simp only at hfs
    subst hfs
    rw [show NodeIter.next ⟨data, true, [], nb⟩ = (St data [] nb).pushNode 0 from rfl]
    rcases push_cases data [] nb 0 with ⟨term, count, edges, h1, h2⟩ | h2
    · rw [h2]
      exact ⟨⟨by simp [St], by simp [St]; exact NodeAt.lt h1⟩, rfl, by simp, rfl⟩
    · rw [h2]
      exact ⟨h, rfl, by simp, rfl⟩

theorem next_bnd (n : Nat) {it : NodeIter} (hn : it.measure = n) (h : Bnd it) (hf : it.first = true → it.stack = []) :
    Bnd (next it).2 ∧ (next it).2.data = it.data ∧ (next it).1 ≠ .panic ∧ (next it).2.first = false := by
  induction n using Nat.strongRecOn generalizing it with
  | _ n ih =>
    have hb := next_bnd' h hf
    match hnx : it.next with
    | (.ok none, it') => rw [next_none hnx]; rw [hnx] at hb; exact ⟨hb.1, hb.2.1, by simp, hb.2.2.2⟩
    | (.err, it') => rw [next_err hnx]; rw [hnx] at hb; exact ⟨hb.1, hb.2.1, by simp, hb.2.2.2⟩
    | (.panic, it') => rw [hnx] at hb; exact absurd rfl hb.2.2.1
    | (.ok (some (some x)), it') =>
      rw [next_some hnx]; rw [hnx] at hb; exact ⟨hb.1, hb.2.1, by simp, hb.2.2.2⟩
    | (.ok (some none), it') =>
      rw [next_some hnx]
      rw [hnx] at hb
      have := ih _ (by rw [← hn]; exact next_measure hnx) (it := it') rfl hb.1 (fun hc => by rw [hb.2.2.2] at hc; simp at hc)
      simp only
      rw [this.2.1]
      exact ⟨this.1, hb.2.1, this.2.2⟩

/-- Yielding an item makes progress. -/
theorem next_measure_item (n : Nat) {it it' : NodeIter} {x : ExportSymbol} (hn : it.measure = n)
    (h : next it = (.ok (some x), it')) : it'.measure < it.measure := by
  induction n using Nat.strongRecOn generalizing it with
  | _ n ih =>
    match hnx : it.next with
    | (.ok none, it1) => rw [next_none hnx] at h; simp at h
    | (.err, it1) => rw [next_err hnx] at h; simp at h
    | (.panic, it1) => rw [next_panic hnx] at h; simp at h
    | (.ok (some (some y)), it1) =>
      rw [next_some hnx] at h
      simp only [Prod.mk.injEq] at h
      rw [← h.2]; exact next_measure hnx
    | (.ok (some none), it1) =>
      rw [next_some hnx] at h
      have h1 := next_measure hnx
      have := ih _ (by rw [← hn]; exact h1) (it := it1) rfl h
      omega

end Obj.Trie
