import Verif.Proof.ExportsTrie

/-! # C24: the Mach-O exports trie -/

namespace Obj.Props
open Obj Obj.Trie Obj.Spec.Trie

/-- C24: the traversal ends without an error with the symbols `xs` exactly if the data is a well formed finite trie whose symbols,
in depth first order and named by the concatenation of the edge labels, are `xs`. -/
theorem C24_traversal (data : List UInt8) (xs : List ExportSymbol) :
    Runs Trie.next (NodeIter.new data) xs .done ↔ Subtrie data [] 0 [] xs := by
  have hfirst : ∀ it', (NodeIter.new data).next = it' ↔ (St data [] []).pushNode 0 = it' := fun _ => Iff.rfl
  constructor
  · intro h
    rcases push_cases data [] [] 0 with ⟨term, count, edges, h1, h2⟩ | h2
    · obtain ⟨zs, rfl, hz⟩ := (runs_step ((hfirst _).2 h2) xs .done).1 h
      obtain ⟨es, rest, xs1, xs2, g1, g2, g3, g4, rfl⟩ := sound _ _ _ rfl (by exact ⟨Nat.le_refl _, trivial⟩) zs hz
      simp only at g1 g2 g3
      cases g4
      rw [item_toList, List.append_nil]
      refine .node (by simp) ?_ g2 ?_
      · rw [g1]; exact h1
      · simpa using g3
    · have := (Runs.unique h (.err (next_err ((hfirst _).2 h2)))).2
      simp at this
  · intro h
    obtain ⟨term, count, edges, -, hn, zs, hz, heq⟩ := sub_complete h [] [] .done rfl
      (fun nb _ => .done (s' := St data [] nb) (next_none rfl))
    rw [List.append_nil] at heq
    refine (runs_step ((hfirst _).2 (push_ok hn)) xs .done).2 ⟨zs, ?_, hz⟩
    rw [item_toList, heq]

/-- A trie with a shared node: the names are "a", "ac" and "b". -/
private def sample : List UInt8 := [0, 2, 97, 0, 8, 98, 0, 15, 2, 0, 16, 1, 99, 0, 15, 3, 8, 5, 0, 0]

/-- The sample is a well formed trie with three symbols. -/
example : Subtrie sample [] 0 [] [⟨[97], 0, .regular 16⟩, ⟨[97, 99], 8, .reexport 5 []⟩, ⟨[98], 8, .reexport 5 []⟩] := by
  have hshared : ∀ path name, 15 ∉ path → Subtrie sample path 15 name [⟨name, 8, .reexport 5 []⟩] := by
    intro path name hp
    exact .node (term := some (8, .reexport 5 [])) (edges := []) (rest := []) (es := []) (xs := []) hp
      ((readNode_iff ..).1 (by decide +kernel)) rfl .nil
  have ha : Subtrie sample [0] 8 [97] [⟨[97], 0, .regular 16⟩, ⟨[97, 99], 8, .reexport 5 []⟩] :=
    .node (term := some (0, .regular 16)) (edges := [99, 0, 15, 3, 8, 5, 0, 0]) (rest := [3, 8, 5, 0, 0]) (es := [([99], 15)])
      (xs := [⟨[97, 99], 8, .reexport 5 []⟩]) (by simp) ((readNode_iff ..).1 (by decide +kernel))
      ⟨[15, 3, 8, 5, 0, 0], _, (cstr_iff ..).1 (by decide +kernel), (uleb_iff ..).1 (by decide +kernel), rfl⟩
      (.cons (xs := [⟨[97, 99], 8, .reexport 5 []⟩]) (ys := []) (hshared _ _ (by simp)) .nil)
  exact .node (term := none) (edges := sample.drop 2) (rest := sample.drop 8) (es := [([97], 8), ([98], 15)])
    (by simp) ((readNode_iff ..).1 (by decide +kernel))
    ⟨_, _, (cstr_iff _ _ (sample.drop 4)).1 (by decide +kernel), (uleb_iff _ (sample.drop 5) _).1 (by decide +kernel),
      _, _, (cstr_iff _ _ (sample.drop 7)).1 (by decide +kernel), (uleb_iff _ (sample.drop 8) _).1 (by decide +kernel), rfl⟩
    (.cons (xs := [⟨[97], 0, .regular 16⟩, ⟨[97, 99], 8, .reexport 5 []⟩]) ha
      (.cons (xs := [⟨[98], 8, .reexport 5 []⟩]) (ys := []) (hshared _ _ (by simp)) .nil))

/-- C24: for any data the traversal ends without panicking; every symbol that is yielded, even if an error follows, belongs to a
node with that terminal data at the end of a path of edges from the root whose labels concatenate to the name; no node occurs
twice on the path and the number of its nodes is at most the length of the data. -/
theorem C24_untrusted (data : List UInt8) : ∃ xs e, Runs Trie.next (NodeIter.new data) xs e ∧ e ≠ .panic ∧
    ∀ x ∈ xs, ∃ path off count edges, Reach data path off x.name ∧ NodeAt data off (some (x.flags, x.data)) count edges ∧
      (off :: path).Nodup ∧ (off :: path).length ≤ data.length := by
  obtain ⟨xs, e, h, -⟩ := Runs.exists_of_measure (next := Trie.next) (fun _ => True) NodeIter.measure
    (fun s x s' _ h => ⟨trivial, next_measure_item _ rfl h⟩) (NodeIter.new data) trivial
  refine ⟨xs, e, h, ?_, ?_⟩
  · refine Runs.no_panic (fun it => Bnd it ∧ (it.first = true → it.stack = [])) ?_ ?_ ?_ h
    · intro s x s' ⟨h1, h2⟩ hs
      have := next_bnd _ rfl h1 h2
      rw [hs] at this
      exact ⟨this.1, fun hc => by rw [this.2.2.2] at hc; simp at hc⟩
    · intro s ⟨h1, h2⟩
      exact (next_bnd _ rfl h1 h2).2.2.1
    · exact ⟨⟨by simp [NodeIter.new], by simp [NodeIter.new]⟩, fun _ => rfl⟩
  · have hall : ∀ x ∈ xs, ∃ path off count edges, Reach data path off x.name ∧
        NodeAt data off (some (x.flags, x.data)) count edges := by
      rcases push_cases data [] [] 0 with ⟨term, count, edges, h1, h2⟩ | h2
      · have h2 : (NodeIter.new data).next = _ := h2
        obtain ⟨zs, rfl, hz⟩ := (runs_step h2 xs e).1 h
        intro x hx
        rw [List.mem_append] at hx
        rcases hx with hx | hx
        · cases term with
          | none => simp [item] at hx
          | some y =>
            simp only [item, Option.map_some, Option.toList_some, List.mem_singleton] at hx
            subst hx
            exact ⟨[], 0, count, edges, .root, h1⟩
        · exact reach_runs _ _ _ rfl (by exact ⟨Nat.le_refl _, ⟨term, count, edges, [], .root, h1, rfl, by simp⟩, trivial⟩) zs e hz x hx
      · have := (Runs.unique h (.err (next_err (it := NodeIter.new data) h2))).1
        subst this; simp
    intro x hx
    obtain ⟨path, off, count, edges, h1, h2⟩ := hall x hx
    have hn := Reach.nodup h1
    refine ⟨path, off, count, edges, h1, h2, hn.1, nodup_length_le _ _ hn.1 ?_⟩
    intro a ha
    rw [List.mem_cons] at ha
    rcases ha with rfl | ha
    · exact NodeAt.lt h2
    · exact hn.2 a ha

/-- C24: at any time, also after errors, no node is twice on the stack, the stack has at most as many entries as the data has
bytes, and asking for the next symbol does not panic. -/
theorem C24_depth (data : List UInt8) (n : Nat) :
    let it := Nat.repeat (fun it => (Trie.next it).2) n (NodeIter.new data)
    (it.stack.map (·.offset)).Nodup ∧ it.stack.length ≤ data.length ∧ (Trie.next it).1 ≠ .panic := by
  have key : Bnd (Nat.repeat (fun it => (Trie.next it).2) n (NodeIter.new data)) ∧
      (Nat.repeat (fun it => (Trie.next it).2) n (NodeIter.new data)).data = data ∧
      ((Nat.repeat (fun it => (Trie.next it).2) n (NodeIter.new data)).first = true →
        (Nat.repeat (fun it => (Trie.next it).2) n (NodeIter.new data)).stack = []) := by
    induction n with
    | zero => exact ⟨⟨by simp [Nat.repeat, NodeIter.new], by simp [Nat.repeat, NodeIter.new]⟩, rfl, fun _ => rfl⟩
    | succ n ih =>
      obtain ⟨h1, h2, h3⟩ := ih
      have := next_bnd _ rfl h1 h3
      exact ⟨this.1, this.2.1.trans h2, fun hc => by rw [Nat.repeat, this.2.2.2] at hc; simp at hc⟩
  obtain ⟨h1, h2, h3⟩ := key
  refine ⟨h1.1, ?_, (next_bnd _ rfl h1 h3).2.2.1⟩
  have := nodup_length_le _ _ h1.1 (fun a ha => by
    obtain ⟨f, hf, rfl⟩ := List.mem_map.1 ha
    exact h1.2 f hf)
  rw [List.length_map, h2] at this
  exact this

/-- A cycle to the root, a child outside of the data and unknown flags are errors. -/
example : Runs Trie.next (NodeIter.new [0, 1, 97, 0, 0]) [] .err ∧ Runs Trie.next (NodeIter.new [0, 1, 97, 0, 9]) [] .err ∧
    Runs Trie.next (NodeIter.new [2, 64, 1, 0]) [] .err := by
  refine ⟨?_, ?_, ?_⟩
  · refine (runs_step (o := none) (it' := St [0, 1, 97, 0, 0] [⟨[97, 0, 0], 0, 1, 0⟩] []) (by decide +kernel) _ _).2 ⟨[], rfl, ?_⟩
    exact .err (next_err (it' := St [0, 1, 97, 0, 0] [⟨[], 0, 0, 0⟩] [97]) (by decide +kernel))
  · refine (runs_step (o := none) (it' := St [0, 1, 97, 0, 9] [⟨[97, 0, 9], 0, 1, 0⟩] []) (by decide +kernel) _ _).2 ⟨[], rfl, ?_⟩
    exact .err (next_err (it' := St [0, 1, 97, 0, 9] [⟨[], 0, 0, 0⟩] [97]) (by decide +kernel))
  · exact .err (next_err (it' := St [2, 64, 1, 0] [] []) (by decide +kernel))

end Obj.Props
