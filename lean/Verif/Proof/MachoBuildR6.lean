import Verif.Proof.MachoBuildR5
import Verif.Proof.MachoImport3

/-! Reading of files by the Mach-O builder: the only panic. -/

namespace Obj.MachoB
open Obj Obj.MachoR Obj.Spec.MachoB
open Obj.BuildW (foldR mapR)
open Obj.Spec.MachoF (Each num width headerSize headerIn IsCommand segmentIn CommandsIn CommandsOf)
open Obj.MachO (LoadCommands LoadCommandData)
open Obj.MachoF Obj.MachoI

theorem readAt_np (d : List UInt8) (o n : Nat) : Bytes.readAt d o n ≠ .panic := by rw [MachoI.readAt_eq]; split <;> simp

theorem mapR_np {α β : Type} {f : α → Res β} (h : ∀ x, f x ≠ .panic) (l : List α) : mapR f l ≠ .panic := by
  induction l with
  | nil => simp [mapR]
  | cons x l ih => exact Res.bind_no_panic (h x) fun _ _ => Res.bind_no_panic ih fun _ _ => by simp

theorem variant_np (c : Cfg) (d : LoadCommandData) : variant c d ≠ .panic := by
  unfold variant
  rw [read_eq, read_eq]
  repeat' split
  all_goals first
    | simp; done
    | (refine Res.bind_no_panic (readAt_np _ _ _) fun _ _ => ?_; intro h; cases h)
    | (rename_i h; split at h <;> simp at h)

theorem scan_np (c : Cfg) (data : List UInt8) (st : State) (d : LoadCommandData) : scanStep c data st d ≠ .panic := by
  unfold scanStep
  refine Res.bind_no_panic (variant_np _ _) fun v _ => ?_
  cases v <;> first
    | simp; done
    | (refine Res.bind_no_panic ?_ fun _ _ => by simp
       exact Res.bind_no_panic (readSliceAt_no_panic _ _ _ _) fun _ _ => by simp)

theorem readRel_np (st : State) (r : RelInfo) : readRel st r ≠ .panic := by unfold readRel; repeat' split <;> simp
theorem readInd_np (st : State) (v : Nat) : readInd st v ≠ .panic := by unfold readInd; repeat' split <;> simp

theorem indirect_np (c : Cfg) (s : Sect) (t : List Nat) : indirectSymbols c s t ≠ .panic := by
  unfold indirectSymbols
  dsimp only
  repeat' split
  all_goals simp

theorem readSection_np (c : Cfg) (data : List UInt8) (st : State) (id : Nat) (s : Sect) (off : Nat) : readSection c data st id s off ≠ .panic := by
  unfold readSection
  refine Res.bind_no_panic ?_ fun _ _ => ?_
  · unfold readData
    split
    · exact Res.bind_no_panic (read_no_panic _ _ _) fun _ _ => by simp
    · simp
  refine Res.bind_no_panic (Res.bind_no_panic (readSliceAt_no_panic _ _ _ _) fun _ _ => by simp) fun _ _ => ?_
  refine Res.bind_no_panic (mapR_np (readRel_np st) _) fun _ _ => ?_
  refine Res.bind_no_panic (indirect_np _ _ _) fun _ _ => ?_
  exact Res.bind_no_panic (mapR_np (readInd_np st) _) fun _ _ => by simp

theorem readSymbol_np (st : State) (data : List UInt8) (t : SymTab) (id : Nat) (y : Nlist) : readSymbol st data t id y ≠ .panic := by
  unfold readSymbol
  refine Res.bind_no_panic ?_ fun _ _ => ?_
  · split
    · split <;> simp
    · simp
  exact Res.bind_no_panic (strGet _ _ _) fun _ _ => by simp

theorem readDylib_np (c : Cfg) (d : LoadCommandData) (img : List UInt8) : readDylib c d img ≠ .panic :=
  Res.bind_no_panic (Pe.readStringAt_no_panic _ _) fun _ _ => by simp

theorem readStep_np (c : Cfg) (data : List UInt8) (st : State) (b : Builder) (d : LoadCommandData) : readStep c data st b d ≠ .panic := by
  unfold readStep
  refine Res.bind_no_panic (variant_np _ _) fun v _ => ?_
  cases v with
  | segment c' s rest =>
    dsimp only
    refine Res.bind_no_panic (readSliceAt_no_panic _ _ _ _) fun _ _ => ?_
    refine Res.bind_no_panic (sectionOffsets_no_panic _ _ _ _) fun _ _ => ?_
    exact Res.bind_no_panic (mapR_np (fun _ => readSection_np _ _ _ _ _ _) _) fun _ _ => by simp
  | symtab s =>
    dsimp only
    refine Res.bind_no_panic ?_ fun _ _ => ?_
    · refine Res.bind_no_panic (readSliceAt_no_panic _ _ _ _) fun _ _ => ?_
      split <;> simp
    · exact Res.bind_no_panic (mapR_np (fun _ => readSymbol_np _ _ _ _ _) _) fun _ _ => by simp
  | dysymtab t => dsimp only; split <;> simp
  | linkedit off size => exact Res.bind_no_panic (read_no_panic _ _ _) fun _ _ => by simp
  | dyldInfo parts =>
    refine Res.bind_no_panic ?_ fun _ _ => by simp
    unfold readParts
    split
    · refine Res.bind_no_panic (read_no_panic _ _ _) fun _ _ => ?_
      refine Res.bind_no_panic (read_no_panic _ _ _) fun _ _ => ?_
      refine Res.bind_no_panic (read_no_panic _ _ _) fun _ _ => ?_
      refine Res.bind_no_panic (read_no_panic _ _ _) fun _ _ => ?_
      exact Res.bind_no_panic (read_no_panic _ _ _) fun _ _ => by simp
    · simp
  | buildVersion v rest => exact Res.bind_no_panic (readSliceAt_no_panic _ _ _ _) fun _ _ => by simp
  | dylib img => exact Res.bind_no_panic (readDylib_np _ _ _) fun _ _ => by simp
  | idDylib img => exact Res.bind_no_panic (readDylib_np _ _ _) fun _ _ => by simp
  | raw => simp
  | other => simp

theorem foldRes_np {α β : Type} {f : β → α → Res β} (h : ∀ b x, f b x ≠ .panic) (l : List α) (b : β) : foldRes f b l ≠ .panic := by
  induction l generalizing b with
  | nil => simp [foldRes]
  | cons x l ih => exact Res.bind_no_panic (h b x) fun _ _ => ih _

theorem relIs_target {en : Endianness} {t : Totals} {a v : Nat} {r : Rel} (h : RelIs en t a v r) :
    (∀ i, r.target = .symbol i → i < t.symbols) ∧ (∀ i, r.target = .section_ i → i < t.sections) := by
  have key : ∀ e n : Nat, (if e = 1 then n < t.symbols ∧ r.target = .symbol n else 0 < n ∧ n ≤ t.sections ∧ r.target = .section_ (n - 1)) →
      (∀ i, r.target = .symbol i → i < t.symbols) ∧ (∀ i, r.target = .section_ i → i < t.sections) := by
    intro e n hi
    split at hi
    · obtain ⟨h1, h2⟩ := hi
      rw [h2]
      refine ⟨fun i e => ?_, fun i e => (by cases e)⟩
      injection e with e
      omega
    · obtain ⟨h1, h2, h3⟩ := hi
      rw [h3]
      refine ⟨fun i e => (by cases e), fun i e => ?_⟩
      injection e with e
      omega
  cases en
  · exact key _ _ h.2.2.2.2
  · exact key _ _ h.2.2.2.2

theorem symbols_count {c : Cfg} {data : List UInt8} {t : Totals} {k : List UInt8} {ys : List Sym} (h : SymbolsAre c data t k ys) :
    ys.length = num c.en k 12 4 := by
  obtain ⟨tab, h1, h2⟩ := h
  rw [BuildR.each_length h2, h1.2.2.1, List.length_map, List.length_range]

theorem readFile_panic (is64 : Bool) (data : List UInt8) (hl : data.length < 2 ^ 63) (h : readFile is64 data = .panic) :
    ∃ en cmds, CommandsAll ⟨is64, en⟩ (headerIn en data) data cmds ∧ 2 ≤ (cmds.filter (isSymtab en)).length := by
  unfold readFile at h
  rcases hp : parseHeader is64 data with ⟨c, hd⟩ | _ | _
  rotate_left
  · rw [hp] at h; cases h
  · exact absurd hp (parseHeader_no_panic _ _)
  rw [hp, Res.ok_bind] at h
  obtain ⟨hc, _, _, hh⟩ := (parseHeader_iff ..).1 hp
  dsimp only at h
  rcases commands_run c hd data hl with ⟨cs, cmds, e, g1, _, g3, g4, g5, g6, g7⟩ | ⟨g1, _⟩
  rotate_left
  · rw [g1] at h; cases h
  rw [g1, Res.ok_bind, for_eq _ g5] at h
  rcases hs : foldRes (scanStep c data) ⟨0, 0, [], 14⟩ (Props.commandList c.en (headerSize c.is64) cmds) with st | _ | _
  rotate_left
  · rw [hs] at h; cases h
  · exact absurd hs (foldRes_np (scan_np c data) _ _)
  rw [hs, Res.ok_bind] at h
  cases e with
  | err => cases h
  | panic => exact absurd rfl g6
  | done =>
  dsimp only at h
  rw [Res.ok_bind, for_eq _ g5] at h
  rcases hf : foldRes (readStep c data st) ⟨c.en, is64, 2 ^ st.pageBits, hd.cputype, hd.cpusubtype, hd.filetype, hd.flags, [], [], [], [], []⟩
    (Props.commandList c.en (headerSize c.is64) cmds) with b | _ | _
  rotate_left
  · rw [hf] at h; cases h
  · exact absurd hf (foldRes_np (readStep_np c data st) _ _)
  rw [hf, Res.ok_bind] at h
  dsimp only at h
  rw [Res.ok_bind] at h
  have hcc : (⟨is64, c.en⟩ : Cfg) = c := by rw [← hc]
  rw [CommandsOf, if_pos g4] at g3
  refine ⟨c.en, cmds, ?_, ?_⟩
  · rw [hcc, ← hh]; exact (commandsAll_iff ..).2 ⟨g4, g3, g7.1 rfl⟩
  rcases Nat.lt_or_ge (cmds.filter (isSymtab c.en)).length 2 with hlt | hge
  rotate_left
  · exact hge
  exfalso
  obtain ⟨_, tables, ht1, hst⟩ := (scan_fold ..).1 hs
  have hte : TotalsEq st ⟨st.sections, st.symbols, st.indirect⟩ := ⟨rfl, rfl, rfl⟩
  obtain ⟨ks, gs, yss, ds, q1, q2, q3, q4, q5, q6, q7, q8, q9, q10, hbe⟩ := (fold_iff hte c data hl ..).1 hf
  have h1 : b.sections.length = st.sections := by
    rw [hbe, hst]
    have := sections_count q4
    simp only [List.nil_append, Nat.zero_add]
    exact this
  have h2 : b.symbols.length = st.symbols := by
    rw [hbe, hst]
    simp only [List.nil_append]
    rcases hfl : cmds.filter (isSymtab c.en) with _ | ⟨k, _ | ⟨k', l⟩⟩
    · rw [hfl, BuildR.each_nil_left] at q5
      subst q5; rfl
    · rw [hfl] at q5
      obtain ⟨ys, yss', rfl, hy, q5'⟩ := BuildR.each_cons_left.1 q5
      rw [BuildR.each_nil_left] at q5'
      subst q5'
      simp [symbols_count hy]
    · rw [hfl] at hlt; simp at hlt; omega
  rw [if_neg (by omega)] at h
  cases h

end Obj.MachoB
