import Verif.Model.Cutscene

/-! # Properties of cutscene libraries: C51 -/

namespace Verif

/-- If the predicate is decided by `P` and holds of a prefix of the list, the search ends at the end of that prefix. -/
theorem lowerBoundBy_spec {α} (less : α → Except Fail Bool) (P : α → Bool) (l : List α) (hl : ∀ x ∈ l, less x = .ok (P x))
    (hm : l.Pairwise fun a b => P b = true → P a = true) : ∀ fuel first len, len ≤ fuel → first + len ≤ l.length →
    (∀ j (h : j < l.length), j < first → P l[j] = true) → (∀ j (h : j < l.length), first + len ≤ j → P l[j] = false) →
    ∃ r, lowerBoundBy less l fuel first len = .ok r ∧ (∀ j (h : j < l.length), j < r → P l[j] = true) ∧
      (∀ j (h : j < l.length), r ≤ j → P l[j] = false) := by
  intro fuel
  induction fuel with
  | zero =>
    intro first len hf hr h1 h2
    have : len = 0 := by omega
    subst this
    exact ⟨first, rfl, h1, by simpa using h2⟩
  | succ fuel ih =>
    intro first len hf hr h1 h2
    unfold lowerBoundBy
    by_cases h0 : len = 0
    · subst h0
      exact ⟨first, by rw [if_pos rfl], h1, by simpa using h2⟩
    · have hlt : first + len / 2 < l.length := by omega
      rw [if_neg h0, List.getElem?_eq_getElem hlt]
      dsimp only
      rw [hl _ (List.getElem_mem hlt)]
      cases hp : P l[first + len / 2] with
      | true =>
        refine ih _ _ (by omega) (by omega) ?_ ?_
        · intro j h hj
          rcases Nat.lt_or_ge j (first + len / 2) with h' | h'
          · exact (List.pairwise_iff_getElem.1 hm) j _ h hlt h' hp
          · have : j = first + len / 2 := by omega
            subst this
            exact hp
        · intro j h hj
          exact h2 j h (by omega)
      | false =>
        refine ih _ _ (by omega) (by omega) h1 ?_
        intro j h hj
        rcases Nat.lt_or_ge (first + len / 2) j with h' | h'
        · cases hq : P l[j] with
          | false => rfl
          | true => rw [(List.pairwise_iff_getElem.1 hm) _ j hlt h h' hq] at hp; cases hp
        · have : j = first + len / 2 := by omega
          subst this
          exact hp

end Verif

namespace Verif.Props

/-- The blocks are sorted by name, as `CutsceneLibrary::load` leaves them. -/
def SortedBlocks (blocks : List CsBlock) : Prop := blocks.Pairwise fun a b => a.name ≤ b.name

/-- What `block_by_name` returns for a sorted library: the first block whose name is not less. -/
theorem blockByName_eq (blocks : List CsBlock) (hs : SortedBlocks blocks) (n : Bytes) :
    blockByName (blocks.map some) n = .ok (blocks.find? fun b => !decide (b.name < n)) := by
  have hm : (blocks.map some).Pairwise fun (a b : Option CsBlock) =>
      (b.any fun b => decide (b.name < n)) = true → (a.any fun b => decide (b.name < n)) = true := by
    rw [List.pairwise_map]
    refine hs.imp ?_
    intro a b hab h
    simp only [Option.any_some, decide_eq_true_eq] at h ⊢
    exact List.lt_of_le_of_lt hab h
  obtain ⟨r, hr, h1, h2⟩ := lowerBoundBy_spec (CsBlock.less n) (fun b => b.any fun b => decide (b.name < n)) (blocks.map some)
    (by
      intro x hx
      obtain ⟨b, _, rfl⟩ := List.mem_map.1 hx
      rfl) hm (blocks.map some).length 0 (blocks.map some).length (Nat.le_refl _) (by omega) (by intro j _ h; omega)
    (by intro j h hj; omega)
  unfold blockByName
  rw [hr]
  show (match (blocks.map some)[r]? with | some b => _ | none => _) = _
  simp only [List.getElem_map, Option.any_some, List.length_map, decide_eq_true_eq, decide_eq_false_iff_not] at h1 h2
  by_cases hlt : r < blocks.length
  · rw [List.getElem?_eq_getElem (by simpa using hlt), List.getElem_map]
    dsimp only
    rw [(List.find?_eq_some_iff_getElem.2 ⟨by simpa using h2 r hlt (Nat.le_refl _), r, hlt, rfl, ?_⟩ :
      blocks.find? _ = some blocks[r])]
    intro j hj
    simpa using h1 j (by omega) hj
  · rw [List.getElem?_eq_none (by simpa using hlt)]
    dsimp only
    rw [List.find?_eq_none.2]
    intro x hx
    obtain ⟨j, hj, rfl⟩ := List.mem_iff_getElem.1 hx
    simpa using h1 j hj (by omega)

/-- C51, full claim: a block of that name if there is one, null otherwise. -/
def FindsExactly (blocks : List CsBlock) (n : Bytes) : Prop :=
  ((∃ b ∈ blocks, b.name = n) → ∃ b ∈ blocks, b.name = n ∧ blockByName (blocks.map some) n = .ok (some b)) ∧
    ((∀ b ∈ blocks, b.name ≠ n) → blockByName (blocks.map some) n = .ok none)

/-- C51 (part): in a sorted library a name that is present is found, and the lookup never reads out of bounds. Missing: names that
are not in the library (`c51_violation`, `c51_absent`) and libraries not sorted by the caller (`c51_unsorted_violation`). -/
theorem c51_partial (blocks : List CsBlock) (hs : SortedBlocks blocks) (n : Bytes) (hn : ∃ b ∈ blocks, b.name = n) :
    ∃ b ∈ blocks, b.name = n ∧ blockByName (blocks.map some) n = .ok (some b) := by
  rw [blockByName_eq blocks hs n]
  obtain ⟨b, hb, rfl⟩ := hn
  cases hf : blocks.find? fun c => !decide (c.name < b.name) with
  | none =>
    have := List.find?_eq_none.1 hf b hb
    simp [List.lt_irrefl] at this
  | some c =>
    obtain ⟨hc, i, hi, rfl, hpre⟩ := List.find?_eq_some_iff_getElem.1 hf
    refine ⟨_, List.getElem_mem hi, ?_, rfl⟩
    obtain ⟨j, hj, rfl⟩ := List.mem_iff_getElem.1 hb
    have hge : blocks[j].name ≤ blocks[i].name := by simpa using hc
    have hle : blocks[i].name ≤ blocks[j].name := by
      rcases Nat.lt_trichotomy i j with h | h | h
      · exact (List.pairwise_iff_getElem.1 hs) i j hi hj h
      · subst h; exact List.le_refl _
      · have := hpre j h
        simp [List.lt_irrefl] at this
    exact List.le_antisymm hle hge

/-- C51, exactly what happens for a name that is not in a sorted library: null only if every name is less; otherwise the block with
the next greater name is returned in its place. -/
theorem c51_absent (blocks : List CsBlock) (hs : SortedBlocks blocks) (n : Bytes) (hn : ∀ b ∈ blocks, b.name ≠ n) :
    (blockByName (blocks.map some) n = .ok none ↔ ∀ b ∈ blocks, b.name < n) ∧
      ∀ b, blockByName (blocks.map some) n = .ok (some b) →
        b ∈ blocks ∧ n < b.name ∧ ∀ c ∈ blocks, n < c.name → b.name ≤ c.name := by
  rw [blockByName_eq blocks hs n]
  constructor
  · simp only [Except.ok.injEq, List.find?_eq_none]
    simp
  · intro b hb
    obtain ⟨hc, i, hi, rfl, hpre⟩ := List.find?_eq_some_iff_getElem.1 (Except.ok.inj hb)
    have hmem := List.getElem_mem hi
    have hge : n ≤ blocks[i].name := by simpa using hc
    refine ⟨hmem, ?_, ?_⟩
    · rcases List.le_iff_lt_or_eq.1 hge with h | h
      · exact h
      · exact absurd h.symm (hn _ hmem)
    · intro c hcm hlt
      obtain ⟨j, hj, rfl⟩ := List.mem_iff_getElem.1 hcm
      rcases Nat.lt_trichotomy i j with h | h | h
      · exact (List.pairwise_iff_getElem.1 hs) i j hi hj h
      · subst h; exact List.le_refl _
      · have := hpre j h
        simp at this
        exact absurd hlt (List.lt_asymm this)

/-- C51 is false: asking for "B" in a library holding "A" and "C" gives the block "C". -/
theorem c51_violation : ∃ blocks n, SortedBlocks blocks ∧ ¬ FindsExactly blocks n := by
  refine ⟨[⟨b!"A", 0⟩, ⟨b!"C", 1⟩], b!"B", by unfold SortedBlocks; decide, ?_⟩
  intro h
  have := h.2 (by decide)
  revert this
  decide

/-- C51 is false, for the present names too, when the application has filled the public list of blocks in another order. -/
theorem c51_unsorted_violation : ∃ (blocks : List CsBlock) (n : Bytes), (∃ b ∈ blocks, b.name = n) ∧ blockByName (blocks.map some) n = .ok none := by
  refine ⟨[⟨b!"C", 0⟩, ⟨b!"B", 1⟩, ⟨b!"A", 2⟩], b!"C", ⟨⟨b!"C", 0⟩, by decide, rfl⟩, by decide⟩

/-- C51: loading leaves the blocks sorted, and a permutation of what was in the file. -/
theorem c51_load_sorts (blocks : List CsBlock) :
    ∃ out, sortBlocks (blocks.map some) = .ok (out.map some) ∧ SortedBlocks out ∧ out.Perm blocks := by
  by_cases h : blocks.length ≤ 1
  · refine ⟨blocks, by simp [sortBlocks, h], ?_, .refl _⟩
    match blocks, h with
    | [], _ => exact .nil
    | [a], _ => exact List.pairwise_singleton _ _
  · refine ⟨blocks.mergeSort fun a b => decide (a.name ≤ b.name), ?_, ?_, List.mergeSort_perm _ _⟩
    · unfold sortBlocks
      rw [if_neg (by simpa using h), if_pos (by simp)]
      congr 1
      refine (List.map_mergeSort ?_).symm
      intro a _ b _
      rfl
    · have := List.pairwise_mergeSort (le := fun (a b : CsBlock) => decide (a.name ≤ b.name))
        (by intro a b c hab hbc; simp only [decide_eq_true_eq] at *; exact List.le_trans hab hbc)
        (by intro a b; simp only [Bool.or_eq_true, decide_eq_true_eq]; exact List.le_total _ _) blocks
      exact this.imp (by intro a b h; simpa using h)

/-- C51 (part), from the file to the lookup: every block name in a loaded library is found. -/
theorem c51_loaded_partial (blocks : List CsBlock) (n : Bytes) (hn : ∃ b ∈ blocks, b.name = n) :
    ∃ out b, sortBlocks (blocks.map some) = .ok out ∧ b ∈ blocks ∧ b.name = n ∧ blockByName out n = .ok (some b) := by
  obtain ⟨out, h1, h2, h3⟩ := c51_load_sorts blocks
  obtain ⟨b, hb, hn⟩ := hn
  obtain ⟨c, hc, hcn, hl⟩ := c51_partial out h2 n ⟨b, h3.mem_iff.2 hb, hn⟩
  exact ⟨_, c, h1, h3.mem_iff.1 hc, hcn, hl⟩

/-- A library with an object that is not a known class, among others, is undefined behaviour to load. -/
theorem c51_null_violation : ∃ blocks, sortBlocks blocks = .error .ub := ⟨[none, none], rfl⟩

example : SortedBlocks [⟨b!"A", 0⟩, ⟨b!"B", 1⟩, ⟨b!"B", 2⟩] ∧ ∃ b ∈ [(⟨b!"A", 0⟩ : CsBlock), ⟨b!"B", 1⟩], b.name = b!"B" := by
  refine ⟨by unfold SortedBlocks; decide, ⟨b!"B", 1⟩, by decide, rfl⟩

end Verif.Props
