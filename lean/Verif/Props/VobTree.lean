import Verif.Lemmas.VobTree
import Verif.Lemmas.VobDrop
import Verif.Props.ArchiveGraph

/-! # C48: trees of virtual objects -/

namespace Verif.Props

open Verif.Ar Verif.VobTree

/-! ## Saving and loading -/

/-- C48 for BINARY archives, first half: a saved tree is loaded as a tree of the same shape, of copies of the same objects. -/
theorem c48_binary (H : GHeap) (dom : List Nat) (S : Schema) (kids : Kids) (root : Nat) (f : Forest) (h : TreeOk H kids root f)
    (hg : GraphOk H [] dom S (fun _ v => Bin.OkVal v) (fun n c _ _ => NoEol n ∧ NoEol c))
    (w : Bin.Wr) (hw : w.ws.pos ≤ w.ws.data.length) (post : Bytes) (tail : List Nat) (fuel : Nat) (hf : 2 * f.nodes.length + 1 < fuel) :
    ∃ fields m cs g w', save kids fuel (some root) 0 = .ok (fields, m) ∧
      writeFields (writePtr H (dom.length + 1)) fields ⟨w.index, []⟩ = .ok (cs, g) ∧ Bin.calls w cs = some w' ∧
      (w'.ws.pos - w.ws.pos < 2 ^ 32 → ∃ N φ, ∀ pf ≥ N, ∃ s' g' K,
        parse Bin.reader S pf fuel ⟨⟨w'.ws.data ++ post, w.ws.pos⟩, tail⟩ ⟨[], []⟩ [] = .ok (some (φ root), s', g', K) ∧
          IsTreeCopy kids (root :: f.nodes) φ K ∧ IsCopy H fields g'.heap φ) := by
  obtain ⟨cs, g, w', h1, h2, h3⟩ := bin_graph H _ dom S _
    (treeGraph h hg (fun t c h => (classNames_ok t c h).1) (by decide) (by decide) (fun _ _ _ => trivial))
    (follows_listed _) w hw post tail
  refine ⟨_, _, cs, g, w', VobTree.save_eq kids root f h.tree fuel hf, h1, h2, fun hs => ?_⟩
  obtain ⟨N, s', heap, cache, φ, hN, hc, rfl⟩ := h3 hs
  refine ⟨N, φ, fun pf hpf => ?_⟩
  have := hN pf (by omega) (N + (fieldsOf kids (.cons root f .nil) 0).length + 1) (by omega)
  rw [← List.nil_append (List.map Field.want _), readFields_listed _ [] [] _ _ _ rfl (by simp; omega)] at this
  obtain ⟨K, o1, o2⟩ := tree_loads h hf (by
    cases hr : readAs Bin.reader (readPtr Bin.reader S pf) ((fieldsOf kids (.cons root f .nil) 0).map Field.want)
      ⟨⟨w'.ws.data ++ post, w.ws.pos⟩, tail⟩ ⟨[], []⟩ with
    | error e => rw [hr] at this; cases this
    | ok x => rw [hr] at this; exact this) hc
  exact ⟨s', _, K, o1, o2, hc⟩

/-- C48 for BINSAFE archives, first half. -/
theorem c48_binsafe (H : GHeap) (dom : List Nat) (S : Schema) (kids : Kids) (root : Nat) (f : Forest) (h : TreeOk H kids root f)
    (hg : GraphOk H [] dom S (fun _ v => Bs.OkVal v) (fun n c _ _ => Bs.OkName n ∧ Bs.OkName c))
    (w : Bs.Wr) (hw : w.ws.pos ≤ w.ws.data.length) (post : Bytes) (fuel : Nat) (hf : 2 * f.nodes.length + 1 < fuel) :
    ∃ fields m cs g, save kids fuel (some root) 0 = .ok (fields, m) ∧
      writeFields (writePtr H (dom.length + 1)) fields ⟨w.index, []⟩ = .ok (cs, g) ∧ ∃ N φ, ∀ pf ≥ N, ∃ s' g' K,
        parse Bs.reader S pf fuel ⟨(Bs.calls w cs).ws.data ++ post, w.ws.pos⟩ ⟨[], []⟩ [] = .ok (some (φ root), s', g', K) ∧
          IsTreeCopy kids (root :: f.nodes) φ K ∧ IsCopy H fields g'.heap φ := by
  obtain ⟨cs, g, h1, N, s', heap, cache, φ, hN, hc, rfl⟩ := bs_graph H _ dom S _
    (treeGraph h hg (fun t c h => (classNames_ok t c h).2.1) (by decide) (by decide) (fun _ _ _ => trivial))
    (follows_listed _) w hw post
  refine ⟨_, _, cs, g, VobTree.save_eq kids root f h.tree fuel hf, h1, N, φ, fun pf hpf => ?_⟩
  have := hN pf (by omega) (N + (fieldsOf kids (.cons root f .nil) 0).length + 1) (by omega)
  rw [← List.nil_append (List.map Field.want _), readFields_listed _ [] [] _ _ _ rfl (by simp; omega)] at this
  obtain ⟨K, o1, o2⟩ := tree_loads h hf (by
    cases hr : readAs Bs.reader (readPtr Bs.reader S pf) ((fieldsOf kids (.cons root f .nil) 0).map Field.want)
      ⟨(Bs.calls w cs).ws.data ++ post, w.ws.pos⟩ ⟨[], []⟩ with
    | error e => rw [hr] at this; cases this
    | ok x => rw [hr] at this; exact this) hc
  exact ⟨s', _, K, o1, o2, hc⟩

/-- The names of the entries for the numbers of children. -/
theorem okKey_childs (i : Nat) : Asc.OkKey (b!"childs" ++ dec i) := by
  refine ⟨by simp, noEol_append (by decide) (Asc.noEol_dec _), ?_, ?_⟩
  · intro hm
    rcases List.mem_append.1 hm with hm | hm
    · revert hm; decide
    · have := dec_digits i _ hm
      revert this; decide
  · intro c hc
    have : c = 99 := by simpa using hc.symm
    subst this
    decide

/-- C48 for ASCII archives, first half. -/
theorem c48_ascii (H : GHeap) (dom : List Nat) (S : Schema) (kids : Kids) (root : Nat) (f : Forest) (h : TreeOk H kids root f)
    (hg : GraphOk H [] dom S (fun n v => Asc.OkKey n ∧ Asc.OkVal v) (fun n c _ _ => Asc.OkName n ∧ Asc.OkName c))
    (w : Asc.Wr) (hw : w.ws.pos = w.ws.data.length) (hi : w.indent = 0) (post : Bytes) (hpost : Solid post) (fuel : Nat)
    (hf : 2 * f.nodes.length + 1 < fuel) :
    ∃ fields m cs g, save kids fuel (some root) 0 = .ok (fields, m) ∧
      writeFields (writePtr H (dom.length + 1)) fields ⟨w.index, []⟩ = .ok (cs, g) ∧ ∃ N φ, ∀ pf ≥ N, ∃ s' g' K,
        parse Asc.reader S pf fuel ⟨(Asc.calls w cs).ws.data ++ post, w.ws.pos⟩ ⟨[], []⟩ [] = .ok (some (φ root), s', g', K) ∧
          IsTreeCopy kids (root :: f.nodes) φ K ∧ IsCopy H fields g'.heap φ := by
  obtain ⟨cs, g, h1, N, s', heap, cache, φ, hN, hc, rfl⟩ := asc_graph H _ dom S _
    (treeGraph h hg (fun t c h => (classNames_ok t c h).2.2) (by decide) (by decide) (by
        intro i k hk
        refine ⟨okKey_childs _, ?_⟩
        show -10 ^ 9 < (BitVec.ofNat 32 k).toInt
        rw [BitVec.toInt_eq_toNat_cond, toNat_small hk, if_pos (by omega)]
        omega))
    (follows_listed _) w hw hi post hpost
  refine ⟨_, _, cs, g, VobTree.save_eq kids root f h.tree fuel hf, h1, N, φ, fun pf hpf => ?_⟩
  have := hN pf (by omega) (N + (fieldsOf kids (.cons root f .nil) 0).length + 1) (by omega)
  rw [← List.nil_append (List.map Field.want _), readFields_listed _ [] [] _ _ _ rfl (by simp; omega)] at this
  obtain ⟨K, o1, o2⟩ := tree_loads h hf (by
    cases hr : readAs Asc.reader (readPtr Asc.reader S pf) ((fieldsOf kids (.cons root f .nil) 0).map Field.want)
      ⟨(Asc.calls w cs).ws.data ++ post, w.ws.pos⟩ ⟨[], []⟩ with
    | error e => rw [hr] at this; cases this
    | ok x => rw [hr] at this; exact this) hc
  exact ⟨s', _, K, o1, o2, hc⟩

/-! ### A tree -/

def demoVobs : GHeap
  | 1 => some ⟨.zCVob, 0, [.val b!"a" (.int 1)]⟩
  | 2 => some ⟨.oCItem, 0, [.val b!"a" (.int 2)]⟩
  | 3 => some ⟨.zCVob, 0, [.val b!"a" (.int 3)]⟩
  | 4 => some ⟨.zCVob, 0, [.val b!"a" (.int 4)]⟩
  | _ => none

def demoVobSchema : Schema := fun _ l => if l = [] then some (.val .int) else none

/-- 1 has the children 2 and 4, 2 has the child 3. -/
def demoKids : Kids
  | 1 => [some 2, some 4]
  | 2 => [some 3]
  | _ => []

def demoForest : Forest := .cons 2 (.cons 3 .nil .nil) (.cons 4 .nil .nil)

theorem demoTree_ok : TreeOk demoVobs demoKids 1 demoForest := by
  refine ⟨⟨_, rfl, ⟨_, rfl, rfl, rfl⟩, _, rfl, rfl, rfl⟩, by decide, ?_, by decide⟩
  have : ∀ a ∈ [1, 2, 3, 4], ((demoVobs a).any fun o => o.type.isVobject) = true := by decide
  intro a ha
  have := this a ha
  cases ho : demoVobs a with
  | none => rw [ho] at this; cases this
  | some o => rw [ho] at this; exact ⟨o, rfl, this⟩

/-- Saves to a new BINSAFE archive and loads: the first object, and who got which child. -/
def treeTrip (H : GHeap) (S : Schema) (kids : Kids) (root fuel : Nat) : Except Fail (Option Nat × Pushes) := do
  let (fields, _) ← save kids fuel (some root) 0
  let (cs, _) ← writeFields (writePtr H fuel) fields ⟨0, []⟩
  let (p, _, _, K) ← parse Bs.reader S fuel fuel ⟨(Bs.calls ⟨⟨[], 0⟩, 0, []⟩ cs).ws.data, 0⟩ ⟨[], []⟩ []
  return (p, K)

example : treeTrip demoVobs demoVobSchema demoKids 1 20 = .ok (some 0, [(1, 2), (0, 1), (0, 3)]) := by decide +kernel

/-- C48 is false for an object with children that occurs twice: what the number of its children was doubles. -/
theorem c48_shared_violation :
    treeTrip demoVobs demoVobSchema (fun n => if n = 1 then [some 2, some 2] else if n = 2 then [some 3] else []) 1 20 =
      .ok (some 0, [(1, 2), (0, 1), (1, 2), (0, 1)]) := by
  decide +kernel

/-- A null child is dereferenced by `save`. -/
theorem c48_null_violation (kids : Kids) (a : Nat) (l : List (Option Nat)) (h : kids a = none :: l) (fuel n : Nat) :
    save kids (fuel + 3) (some a) n = .error .ub := by
  rw [save, h, saveAll]
  rfl

/-! ## Objects that cannot be loaded -/

theorem end_pos {w : Ws} {bs post : Bytes} {sp : Nat} (h3 : sp ≤ ((w.write bs).data ++ post).length)
    (hle : (w.write bs).pos ≤ (w.write bs).data.length)
    (hd : ((w.write bs).data ++ post).drop w.pos = bs ++ (w.data.drop (w.pos + bs.length) ++ post))
    (h4 : ((w.write bs).data ++ post).drop sp = w.data.drop (w.pos + bs.length) ++ post) : sp = (w.write bs).pos := by
  have a := congrArg List.length hd
  have b := congrArg List.length h4
  have c : (w.write bs).pos = w.pos + bs.length := rfl
  simp only [List.length_append, List.length_drop] at a b h3
  omega

/-- C48 for BINARY archives, second half: the tree is loaded as if the objects of unknown class and the null objects, and all that hangs
on them, were not there. (`docReader` says what loading means.) -/
theorem c48_binary_drop (S : Schema) (it : Item) (cn : Bytes) (k : Stored) (hk : k.size < 2 ^ 31) (w : Bin.Wr)
    (hw : w.ws.pos ≤ w.ws.data.length) (d : Doc) (hd : d = (Stored.cons it cn k .nil).doc .nil) (hnum : d.Numbered w.index)
    (hok : Bin.OkDoc d) (hskip : Bin.SkipDoc d) (post : Bytes) (tail : List Nat) (fuel pf : Nat) (hf : 2 * k.size + 1 < fuel)
    (g g' : GRd) (K K' : Pushes) (p : Option Nat) (L : List Doc)
    (h : parse docReader S (pf + 1) fuel [(Stored.cons it cn k.prune .nil).doc .nil] g K = .ok (p, L, g', K')) :
    ∃ w', Bin.calls w d.calls = some w' ∧
      parse Bin.reader S (pf + 1) fuel ⟨⟨w'.ws.data ++ post, w.ws.pos⟩, tail⟩ g K =
        .ok (p, ⟨⟨w'.ws.data ++ post, w'.ws.pos⟩, tail⟩, g', K') := by
  obtain ⟨_, h'⟩ := tree_prune S pf it cn k hk .nil [] L fuel hf g g' K K' p h
  have hwd := Bin.write_doc d w hw hnum []
  rw [List.append_nil] at hwd
  refine ⟨_, by rw [hwd]; rfl, ?_⟩
  simp only
  have hdrop := Ws.write_drop w.ws (Bin.enc d) post hw
  have hle := Ws.write_le w.ws (Bin.enc d) hw
  obtain ⟨⟨⟨sd, sp⟩, se⟩, e, r⟩ := (refines_parse ((Bin.simAll ((w.ws.write (Bin.enc d)).data ++ post)
    (w.ws.data.drop (w.ws.pos + (Bin.enc d).length) ++ post) tail).refines) S (pf + 1) fuel).1 _
    ⟨⟨(w.ws.write (Bin.enc d)).data ++ post, w.ws.pos⟩, tail⟩ _ _ _ _ _ _ h' (by
      rw [← hd]
      refine ⟨⟨rfl, ?_, ?_, ?_, by simp [Bin.endsOf]⟩, ?_⟩
      · intro x hx
        simp only [List.mem_singleton] at hx
        subst hx
        exact hok
      · simp only [Ws.write, List.length_append] at hle ⊢
        omega
      · show ((w.ws.write (Bin.enc d)).data ++ post).drop w.ws.pos = _
        rw [hdrop]; simp [Bin.encs]
      · intro x hx
        simp only [List.mem_singleton] at hx
        subst hx
        exact hskip)
  obtain ⟨⟨r1, r2, r3, r4, r5⟩, _⟩ := r
  simp only at r1 r3 r4 r5
  subst r1 r5
  rw [e]
  congr 5
  simp only [Bin.encs, List.map_cons, List.map_nil, List.flatten_cons, List.flatten_nil, Bin.enc, List.append_nil, List.nil_append] at r4
  exact end_pos r3 hle hdrop r4

theorem skipDoc_ok : {d : Doc} → Bs.SkipDoc d → Bs.OkDoc d
  | .nil, _ => trivial
  | .val _ _ _, h => ⟨h.1.1, skipDoc_ok h.2⟩
  | .obj _ _ _ _ _ _, h => ⟨h.1, skipDoc_ok h.2.1, skipDoc_ok h.2.2⟩
  | .ref _ _ _, h => ⟨h.1, skipDoc_ok h.2⟩

/-- C48 for BINSAFE archives, second half, part: as for BINARY. Missing: trees that hold a string starting with `[`. -/
theorem c48_binsafe_drop_partial (S : Schema) (it : Item) (cn : Bytes) (k : Stored) (hk : k.size < 2 ^ 31) (w : Bs.Wr)
    (hw : w.ws.pos ≤ w.ws.data.length) (d : Doc) (hd : d = (Stored.cons it cn k .nil).doc .nil) (hnum : d.Numbered w.index)
    (hok : Bs.SkipDoc d) (post : Bytes) (fuel pf : Nat) (hf : 2 * k.size + 1 < fuel)
    (g g' : GRd) (K K' : Pushes) (p : Option Nat) (L : List Doc)
    (h : parse docReader S (pf + 1) fuel [(Stored.cons it cn k.prune .nil).doc .nil] g K = .ok (p, L, g', K')) :
    parse Bs.reader S (pf + 1) fuel ⟨(Bs.calls w d.calls).ws.data ++ post, w.ws.pos⟩ g K =
      .ok (p, ⟨(Bs.calls w d.calls).ws.data ++ post, (Bs.calls w d.calls).ws.pos⟩, g', K') := by
  obtain ⟨_, h'⟩ := tree_prune S pf it cn k hk .nil [] L fuel hf g g' K K' p h
  have hwd := Bs.write_doc d w hw hnum []
  rw [List.append_nil] at hwd
  have hws : (Bs.calls w d.calls).ws = w.ws.write (Bs.enc w.keys d) := by rw [hwd]; rfl
  rw [hws]
  have hdrop := Ws.write_drop w.ws (Bs.enc w.keys d) post hw
  have hle := Ws.write_le w.ws (Bs.enc w.keys d) hw
  obtain ⟨⟨sd, sp⟩, e, r⟩ := (refines_parse ((Bs.simAll ((w.ws.write (Bs.enc w.keys d)).data ++ post)
    (w.ws.data.drop (w.ws.pos + (Bs.enc w.keys d).length) ++ post)).refines) S (pf + 1) fuel).1 _
    ⟨(w.ws.write (Bs.enc w.keys d)).data ++ post, w.ws.pos⟩ _ _ _ _ _ _ h' (by
      rw [← hd]
      refine ⟨⟨rfl, ?_, ?_, _, hdrop, w.keys, rfl⟩, ?_⟩
      · intro x hx
        simp only [List.mem_singleton] at hx
        subst hx
        exact skipDoc_ok hok
      · simp only [Ws.write, List.length_append] at hle ⊢
        omega
      · intro x hx
        simp only [List.mem_singleton] at hx
        subst hx
        exact hok)
  obtain ⟨⟨r1, r2, r3, bs, r4, ks, r5⟩, _⟩ := r
  simp only at r1 r3 r4
  subst r1 r5
  rw [e]
  congr 4
  exact end_pos r3 hle hdrop r4

/-- C48 for ASCII archives, second half: as for BINARY, with numbers as in C17. -/
theorem c48_ascii_drop (S : Schema) (it : Item) (cn : Bytes) (k : Stored) (hk : k.size < 2 ^ 31) (w : Asc.Wr)
    (hw : w.ws.pos = w.ws.data.length) (hi : w.indent = 0) (d : Doc) (hd : d = (Stored.cons it cn k .nil).doc .nil)
    (hnum : d.Numbered w.index) (hok : Asc.SkipDoc d) (post : Bytes) (hpost : Solid post) (fuel pf : Nat) (hf : 2 * k.size + 1 < fuel)
    (g g' : GRd) (K K' : Pushes) (p : Option Nat) (L : List Doc)
    (h : parse docReader S (pf + 1) fuel [(Stored.cons it cn k.prune .nil).doc .nil] g K = .ok (p, L, g', K')) :
    parse Asc.reader S (pf + 1) fuel ⟨(Asc.calls w d.calls).ws.data ++ post, w.ws.pos⟩ g K =
      .ok (p, ⟨(Asc.calls w d.calls).ws.data ++ post, (Asc.calls w d.calls).ws.pos⟩, g', K') := by
  obtain ⟨_, h'⟩ := tree_prune S pf it cn k hk .nil [] L fuel hf g g' K K' p h
  obtain ⟨_, h2, h3, h4⟩ := asc_start d w hw hi hnum hok.1 post hpost
  obtain ⟨⟨sd, sp⟩, e, r⟩ := (refines_parse ((Asc.simAll w.junk _ post hpost).refines) S (pf + 1) fuel).1 _
    _ _ _ _ _ _ _ h' (by
      rw [← hd]
      refine ⟨h4, ?_⟩
      intro x hx
      simp only [List.mem_singleton] at hx
      subst hx
      exact hok)
  obtain ⟨⟨r1, r2, r3, r4⟩, _⟩ := r
  simp only at r1 r3 r4
  subst r1
  rw [e]
  congr 4
  have hb : List.drop sp ((Asc.calls w d.calls).ws.data ++ post) = post := r4
  have := congrArg List.length hb
  simp at this r3
  omega

/-! ### A tree with an object of a class the library does not know -/

/-- Object 0 has four children: an unknown object with a child (of a known class), a null object with a child, a known object with a
child, and a reference to an object that was dropped. -/
def demoStored : Stored :=
  .cons (.obj b!"%" b!"zCMyVob" 0 1 (.val b!"x" (.float 0) .nil)) b!"childs1"
    (.cons (.obj b!"%" b!"zCVob" 0 2 (.val b!"a" (.int 5) .nil)) b!"childs2" .nil .nil)
  (.cons (.obj b!"%" b!"%" 0 0 .nil) b!"childs3" (.cons (.obj b!"%" b!"zCVob" 0 3 (.val b!"a" (.int 6) .nil)) b!"childs4" .nil .nil)
  (.cons (.obj b!"%" b!"zCVob" 0 4 (.val b!"a" (.int 7) .nil)) b!"childs5"
    (.cons (.obj b!"%" b!"oCItem:zCVob" 0 5 (.val b!"a" (.int 8) .nil)) b!"childs6" .nil .nil)
  (.cons (.ref b!"%" 2) b!"childs7" .nil .nil)))

def demoRoot : Item := .obj b!"%" b!"zCVob" 0 0 (.val b!"a" (.int 4) .nil)

def demoTreeDoc : Doc := (Stored.cons demoRoot b!"childs0" demoStored .nil).doc .nil

example : demoTreeDoc.Numbered 0 ∧ Bin.OkDoc demoTreeDoc ∧ Bin.SkipDoc demoTreeDoc ∧ Bs.SkipDoc demoTreeDoc ∧ Asc.SkipDoc demoTreeDoc := by decide +kernel

example : (parse docReader demoVobSchema 9 40 [(Stored.cons demoRoot b!"childs0" demoStored.prune .nil).doc .nil] ⟨[], []⟩ []).map
    (fun r => (r.1, r.2.2.1.heap, r.2.2.2)) =
      .ok (some 0, [(.zCVob, [.val (.int 4)]), (.zCVob, [.val (.int 7)]), (.oCItem, [.val (.int 8)])], [(1, 2), (0, 1)]) := by
  decide +kernel

/-- C48 is false for BINSAFE archives and unknown objects with a string that starts with `[`: the loaded tree lacks the sibling. -/
theorem c48_binsafe_drop_violation :
    let k : Stored :=
      .cons (.obj b!"%" b!"zCMyVob" 0 1 (.val b!"x" (.string b!"[]") .nil)) b!"childs1" .nil
      (.cons (.obj b!"%" b!"zCVob" 0 2 (.val b!"a" (.int 5) .nil)) b!"childs2" .nil .nil)
    let d := (Stored.cons demoRoot b!"childs0" k .nil).doc .nil
    d.Numbered 0 ∧ Bs.OkDoc d ∧
      (parse docReader demoVobSchema 9 40 [(Stored.cons demoRoot b!"childs0" k.prune .nil).doc .nil] ⟨[], []⟩ []).map (·.2.2.2) =
        .ok [(0, 1)] ∧
      (parse Bs.reader demoVobSchema 9 40 ⟨(Bs.calls ⟨⟨[], 0⟩, 0, []⟩ d.calls).ws.data, 0⟩ ⟨[], []⟩ []).map (·.2.2.2) ≠ .ok [(0, 1)] := by
  decide +kernel

end Verif.Props
