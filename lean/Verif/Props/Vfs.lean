import Verif.Lemmas.VfsTree

/-!
# C20, C22–C25, C61, C62: the tree of the virtual file system

`Wf root` says that every directory is ordered; `Verif.Props.VfsDisk` shows that it holds for everything that can be
reached (C21).
-/

namespace Verif.Props

open Verif.Vfs Verif.Spec

/-- A file with content `d`. -/
def mkFile (n : Bytes) (t : Int) (d : Bytes) : Node := .file n t (.make d 0 d.length false 0)

/-! ## C20 -/

/-- C20: the order of directory entries is a strict weak order whose equivalence is equality ignoring case. -/
theorem c20_strict_weak_order :
    (∀ a, icompare a a = false) ∧
    (∀ a b c, icompare a b = true → icompare b c = true → icompare a c = true) ∧
    (∀ a b, (icompare a b = false ∧ icompare b a = false) ↔ fold a = fold b) ∧
    (∀ a b, iequals a b = true ↔ fold a = fold b) :=
  ⟨icompare_irrefl, fun _ _ _ => icompare_trans, incomparable_iff, iequals_iff⟩

/-- Incomparability is transitive. -/
theorem c20_incomparable_trans (a b c : Bytes)
    (h1 : icompare a b = false ∧ icompare b a = false) (h2 : icompare b c = false ∧ icompare c b = false) :
    icompare a c = false ∧ icompare c a = false :=
  (incomparable_iff a c).2 (((incomparable_iff a b).1 h1).trans ((incomparable_iff b c).1 h2))

example : icompare b!"Alpha" b!"beta" = true ∧ icompare b!"ALPHA" b!"alpha" = false ∧
    icompare b!"alpha" b!"ALPHA" = false ∧ iequals b!"ALPHA" b!"alpha" = true := by decide

/-! ## C22 -/

/-- C22: after `create(n)`, `child(m)` is the new node iff `m` names it, and what it was before otherwise. -/
theorem c22_create (name : Bytes) (t : Int) (cs : List Node) (h : Ordered cs) (n : Node) (hn : Clean n.name) :
    ∃ cs', Node.create n (.dir name t cs) = .ok (.dir name t cs', n) ∧ Ordered cs' ∧
      ∀ m, Node.child m (.dir name t cs') =
        if key m = key n.name then .ok (some n) else Node.child m (.dir name t cs) := by
  refine ⟨(createIn n cs).1, ?_, ordered_create h, ?_⟩
  · simp only [Node.create, Node.children, bind, Except.bind, pure, Except.pure, Node.withChildren, create_snd hn h]
  · intro m
    simp only [Node.child, Node.children, bind, Except.bind, pure, Except.pure, childIn_eq _ _ h,
      childIn_eq _ _ (ordered_create h), entry_create hn h]
    by_cases hk : key n.name = key m
    · rw [if_pos hk, if_pos hk.symm]
    · rw [if_neg hk, if_neg (fun e => hk e.symm)]

/-- C22: after `remove(n)`, `child(m)` is nothing if `m` names the removed entry and unchanged otherwise. The result
tells whether there was an entry. -/
theorem c22_remove (name : Bytes) (t : Int) (cs : List Node) (h : Ordered cs) (n : Bytes) :
    ∃ cs' b, Node.remove n (.dir name t cs) = .ok (.dir name t cs', b) ∧ Ordered cs' ∧
      (b = true ↔ ∃ x, Node.child n (.dir name t cs) = .ok (some x)) ∧
      ∀ m, Node.child m (.dir name t cs') =
        if key m = key n then .ok none else Node.child m (.dir name t cs) := by
  refine ⟨(removeIn n cs).1, (removeIn n cs).2, rfl, ordered_remove h, ?_, ?_⟩
  · simp only [Node.child, Node.children, bind, Except.bind, pure, Except.pure, childIn, removeIn]
    cases setFind (trim n) cs with
    | none => simp
    | some x => cases hi : iequals x.name (trim n) <;> simp [hi]
  · intro m
    simp only [Node.child, Node.children, bind, Except.bind, pure, Except.pure, childIn_eq _ _ h,
      childIn_eq _ _ (ordered_remove h), entry_remove h]
    by_cases hk : key n = key m
    · rw [if_pos hk, if_pos hk.symm]
    · rw [if_neg hk, if_neg (fun e => hk e.symm)]

/-- The restriction to names without trailing whitespace is needed: such a node cannot be found. -/
theorem c22_trailing_whitespace_violation : ∃ n : Node, ∃ r, Node.create n (.dir [] 0 []) = .ok (r, n) ∧
    Node.child n.name r = .ok none :=
  ⟨.dir b!"A " 0 [], .dir [] 0 [.dir b!"A " 0 []], by decide, by decide⟩

example : Ordered [mkFile b!"a" 0 b!"1", mkFile b!"B" 0 b!"2"] ∧ Clean (mkFile b!"b" 0 b!"3").name ∧
    Node.create (mkFile b!"b" 0 b!"3") (.dir [] 0 [mkFile b!"a" 0 b!"1", mkFile b!"B" 0 b!"2"]) =
      .ok (.dir [] 0 [mkFile b!"a" 0 b!"1", mkFile b!"b" 0 b!"3"], mkFile b!"b" 0 b!"3") := by
  refine ⟨?_, by decide, by decide⟩
  unfold Ordered; decide

/-! ## C23 -/

/-- C23 is violated: a path that leads through a file terminates the program. -/
theorem c23_resolve_violation : ∃ (root : Node) (path : Bytes), Wf root ∧ resolve path root = .error .terminate :=
  ⟨.dir b!"/" 0 [mkFile b!"a" 0 b!"x"], b!"a/b",
    Wf.dir _ _ _ (by unfold Ordered; decide) (by simp [mkFile]; exact Wf.file _ _ _), by decide⟩

/-- C23, complete account: a path resolves to the node it denotes, or to nothing; it terminates the program exactly
when it continues behind a file. -/
theorem c23_resolve_partial (root : Node) (h : Wf root) (path : Bytes) :
    (ThroughFile root (comps path) ∧ resolve path root = .error .terminate) ∨
    (¬ ThroughFile root (comps path) ∧ resolve path root = .ok (lookup root (comps path))) := by
  unfold resolve
  rw [resolveWith_eq _ _ _ _ (by omega)]
  by_cases ht : ThroughFile root (comps path)
  · rw [resolveC_throughFile h ht]; exact Or.inl ⟨ht, rfl⟩
  · refine Or.inr ⟨ht, ?_⟩
    cases hr : resolveC (fun n => Except.ok (n, n)) root (comps path) with
    | error e =>
      rcases resolveC_error h hr with ⟨_, h2⟩ | ⟨x, _, h3⟩
      · exact absurd h2 ht
      · simp at h3
    | ok o =>
      cases o with
      | none => rw [resolveC_none h hr]
      | some y =>
        obtain ⟨r, n⟩ := y
        obtain ⟨_, x, x', h1, h2, _⟩ := resolveC_some (by
          intro n n' a he
          simp only [Except.ok.injEq, Prod.mk.injEq] at he
          rw [he.1]) h hr
        simp only [Except.ok.injEq, Prod.mk.injEq] at h2
        rw [h1, h2.2]

example : resolve b!"/DIR//X " (.dir b!"/" 0 [.dir b!"dir" 0 [mkFile b!"x" 0 b!"1"]]) =
    .ok (some (mkFile b!"x" 0 b!"1")) := by decide
example : comps b!"/DIR//X " = [b!"DIR", b!"X "] := by decide

/-! ## C24 -/

/-- C24 is violated for names with trailing whitespace: the new directory cannot be resolved. -/
theorem c24_mkdir_violation : ∃ (path : Bytes) (r q : Node), mkdir 0 path empty = .ok (r, q) ∧
    resolve path r = .ok none :=
  ⟨b!"a ", .dir b!"/" (-1) [.dir b!"a " 0 []], .dir b!"a " 0 [], by decide, by decide⟩

/-- C24 for paths whose names have no trailing whitespace: `mkdir` fails exactly when a part of the path is a file;
otherwise the path resolves to the returned directory, repeating the call changes nothing, all nodes that existed are
still there, and the only new nodes are directories on the path. -/
theorem c24_mkdir_partial (now : Int) (root : Node) (h : Wf root) (hd : root.isFile = false) (path : Bytes)
    (hc : ∀ p ∈ comps path, Clean p) :
    ((∃ a b n t d, comps path = a ++ b ∧ lookup root a = some (.file n t d)) ∧
        mkdir now path root = .error (.throw .vfsFileExists)) ∨
    (¬ (∃ a b n t d, comps path = a ++ b ∧ lookup root a = some (.file n t d)) ∧
      ∃ r q, mkdir now path root = .ok (r, q) ∧ Wf r ∧ q.isFile = false ∧
        resolve path r = .ok (some q) ∧
        (∀ now', mkdir now' path r = .ok (r, q)) ∧
        (∀ m x, lookup root m = some x → (lookup r m).map info = some (info x)) ∧
        (∀ m, lookup root m = none → lookup r m = none ∨
          ∃ a b l, comps path = a ++ b ∧ a.map key = m.map key ∧ a.getLast? = some l ∧
            (lookup r m).map info = some (.dir l now))) := by
  unfold mkdir
  rw [mkdirLoop_eq _ _ _ _ (by omega)]
  rcases mkdirC_error now h hd hc with ⟨h1, h2⟩ | ⟨h1, r, q, h2⟩
  · exact Or.inl ⟨h1, h2⟩
  · refine Or.inr ⟨h1, r, q, h2, wf_mkdirC now root _ h h2, ?_⟩
    obtain ⟨h3, h4, h5, h6⟩ := mkdirC_spec now h hd hc h2
    refine ⟨h4, ?_, ?_, fun m x hx => (h6 m).1 x hx, fun m hm => ?_⟩
    · rcases c23_resolve_partial r (wf_mkdirC now root _ h h2) path with ⟨ht, _⟩ | ⟨_, hr⟩
      · rw [throughFile_lookup ht] at h3; cases h3
      · rw [hr, h3]
    · intro now'
      rw [mkdirLoop_eq _ _ _ _ (by omega)]
      exact h5 now'
    · rcases (h6 m).2 hm with h7 | ⟨a, b, h7, h8, l, h9, h10⟩
      · exact Or.inl h7
      · exact Or.inr ⟨a, b, l, h7, h8, h9, h10⟩

example : Wf (.dir b!"/" 0 [.dir b!"A" 0 [mkFile b!"x" 0 b!"1"]]) ∧ (∀ p ∈ comps b!"a/b/c", Clean p) ∧
    mkdir 7 b!"a/b/c" (.dir b!"/" 0 [.dir b!"A" 0 [mkFile b!"x" 0 b!"1"]]) =
      .ok (.dir b!"/" 0 [.dir b!"A" 0 [.dir b!"b" 7 [.dir b!"c" 7 []], mkFile b!"x" 0 b!"1"]], .dir b!"c" 7 []) := by
  refine ⟨Wf.dir _ _ _ (by unfold Ordered; decide) ?_, by decide, by decide⟩
  simp only [List.mem_singleton, forall_eq]
  exact Wf.dir _ _ _ (by unfold Ordered; decide) (by simp [mkFile]; exact Wf.file _ _ _)

example : mkdir 7 b!"a/x/c" (.dir b!"/" 0 [.dir b!"A" 0 [mkFile b!"x" 0 b!"1"]]) =
    .error (.throw .vfsFileExists) := by decide

/-! ## C25 -/

/-- C25: mounting merges the node into the parent directory by the policy and changes nothing else. `mount` fails
only when the parent is missing, is a file or lies behind a file. -/
theorem c25_mount (o : Overwrite) (root node : Node) (h : Wf root) (hn : Wf node) (hc : CleanTree node)
    (parent : Bytes) :
    (ThroughFile root (comps parent) ∧ mount node parent o root = .error .terminate) ∨
    (¬ ThroughFile root (comps parent) ∧ lookup root (comps parent) = none ∧
      mount node parent o root = .error (.throw .vfsNotFound)) ∨
    (∃ n t d, lookup root (comps parent) = some (.file n t d) ∧
      mount node parent o root = .error (.throw .vfsFileExists)) ∨
    (∃ n t cs root', lookup root (comps parent) = some (.dir n t cs) ∧ mount node parent o root = .ok root' ∧
      Wf root' ∧
      ∀ q, (lookup root' q).map info = match strip (comps parent) q with
        | some [] => some (.dir n t)
        | some (p :: ps) => merged o cs [node] (p :: ps)
        | none => (lookup root q).map info) := by
  unfold mount
  rw [resolveWith_eq _ _ _ _ (by omega)]
  generalize hf : (fun p : Node => match p with
      | .file .. => (Except.error (.throw .vfsFileExists) : Except Fail (Node × Unit))
      | .dir n t cs => .ok (.dir n t (mountInto o node cs), ())) = f
  have hff : ∀ n t d, f (.file n t d) = .error (.throw .vfsFileExists) := by intro n t d; rw [← hf]
  have hfd : ∀ n t cs, f (.dir n t cs) = .ok (.dir n t (mountInto o node cs), ()) := by intro n t d; rw [← hf]
  by_cases ht : ThroughFile root (comps parent)
  · rw [resolveC_throughFile h ht]; exact Or.inl ⟨ht, rfl⟩
  · cases hl : lookup root (comps parent) with
    | none =>
      refine Or.inr (Or.inl ⟨ht, rfl, ?_⟩)
      cases hr : resolveC f root (comps parent) with
      | error e =>
        rcases resolveC_error h hr with ⟨_, h2⟩ | ⟨x, h3, _⟩
        · exact absurd h2 ht
        · rw [hl] at h3; cases h3
      | ok y =>
        cases y with
        | none => rfl
        | some z =>
          obtain ⟨_, x, x', h1, _⟩ := resolveC_some (by
            intro n n' a he
            cases n with
            | file => rw [hff] at he; cases he
            | dir => rw [hfd] at he; injection he with he; injection he with he; rw [← he]; rfl) h hr
          rw [hl] at h1; cases h1
    | some x =>
      cases x with
      | file n t d =>
        refine Or.inr (Or.inr (Or.inl ⟨n, t, d, rfl, ?_⟩))
        cases hr : resolveC f root (comps parent) with
        | error e =>
          rcases resolveC_error h hr with ⟨_, h2⟩ | ⟨x, h3, h4⟩
          · exact absurd h2 ht
          · rw [hl] at h3
            injection h3 with h3
            rw [← h3, hff] at h4
            injection h4 with h4
            rw [← h4]
        | ok y =>
          cases y with
          | none => rw [resolveC_none h hr] at hl; cases hl
          | some z =>
            obtain ⟨_, x, x', h1, h2, _⟩ := resolveC_some (by
              intro n n' a he
              cases n with
              | file => rw [hff] at he; cases he
              | dir => rw [hfd] at he; injection he with he; injection he with he; rw [← he]; rfl) h hr
            rw [hl] at h1
            injection h1 with h1
            rw [← h1, hff] at h2; cases h2
      | dir n t cs =>
        obtain ⟨root', hr⟩ := resolveC_total (f := f) h hl (hfd n t cs)
        have hw := lookup_wf h hl
        have hm := wf_mountInto o node cs hn hw.ordered (fun _ => hw.kids)
        obtain ⟨_, x, x', h1, h2, h3⟩ := resolveC_some (by
          intro n n' a he
          cases n with
          | file => rw [hff] at he; cases he
          | dir => rw [hfd] at he; injection he with he; injection he with he; rw [← he]; rfl) h hr
        rw [hl] at h1
        injection h1 with h1
        subst h1
        rw [hfd] at h2
        injection h2 with h2
        injection h2 with h2
        subst h2
        have hwf : Wf root' := by
          refine wf_resolveC (f := f) ?_ root _ h hr
          intro m m' a hm he
          cases m with
          | file => rw [hff] at he; cases he
          | dir n t cs =>
            rw [hfd] at he
            injection he with he
            injection he with he
            rw [← he]
            have := wf_mountInto o node cs hn hm.ordered (fun _ => hm.kids)
            exact Wf.dir _ _ _ this.1 this.2
        refine Or.inr (Or.inr (Or.inr ⟨n, t, cs, root', rfl, by rw [hr], hwf, ?_⟩))
        intro q
        rw [h3 q]
        cases strip (comps parent) q with
        | none => rfl
        | some q2 =>
          cases q2 with
          | nil => rfl
          | cons p ps =>
            dsimp only
            rw [mountInto_eq]
            refine mountAll_merged o (p :: ps) (by simp) [node] cs n t ?_ ?_ ?_ hw.ordered (fun _ => hw.kids)
            · unfold Ordered; simp
            · simpa using hn
            · simpa using hc

/-- C25, consequence: `NONE` keeps every node that existed before below the parent. -/
theorem c25_none_keeps (old new : List Node) (ps : List Bytes) (x : Node) (h : lookup (.dir [] 0 old) ps = some x) :
    merged .none old new ps = some (info x) := by
  induction ps generalizing old new with
  | nil => simp only [lookup, Option.some.injEq] at h; subst h; rfl
  | cons p ps ih =>
    rw [lookup_cons] at h
    cases hx : entry old p with
    | none => rw [hx] at h; cases h
    | some c =>
      rw [hx] at h
      dsimp only at h
      cases hy : entry new p with
      | none => simp [merged, hx, hy, h]
      | some y =>
        cases c with
        | file n t d =>
          have : ¬ takesPlace .none (Node.file n t d).time y.time := id
          simp [merged, hx, hy, h, this]
        | dir n t cs =>
          cases y with
          | file n' t' d' =>
            have : ¬ takesPlace .none (Node.dir n t cs).time (Node.file n' t' d').time := id
            simp [merged, hx, hy, h, this]
          | dir n' t' cs' =>
            simp only [merged, hx, hy]
            split
            · rename_i hp; subst hp
              simp only [lookup, Option.some.injEq] at h; subst h; rfl
            · rename_i hp
              refine ih cs cs' ?_
              cases ps with
              | nil => exact absurd rfl hp
              | cons k ks => exact h

/-- C25, consequence: with `ALL` every file of the mounted node is there afterwards. -/
theorem c25_all_takes (old new : List Node) (ps : List Bytes) (n t d)
    (h : lookup (.dir [] 0 new) ps = some (.file n t d)) :
    merged .all old new ps = some (.file n t d) := by
  induction ps generalizing old new with
  | nil => simp [lookup] at h
  | cons p ps ih =>
    rw [lookup_cons] at h
    cases hy : entry new p with
    | none => rw [hy] at h; cases h
    | some y =>
      rw [hy] at h
      dsimp only at h
      cases hx : entry old p with
      | none => simp [merged, hx, hy, h, info]
      | some x =>
        cases x with
        | file n1 t1 d1 =>
          have : takesPlace .all (Node.file n1 t1 d1).time y.time := trivial
          simp [merged, hx, hy, h, this, info]
        | dir n1 t1 cs =>
          cases y with
          | file n' t' d' =>
            have : takesPlace .all (Node.dir n1 t1 cs).time (Node.file n' t' d').time := trivial
            simp [merged, hx, hy, h, this, info]
          | dir n' t' cs' =>
            simp only [merged, hx, hy]
            split
            · rename_i hp; subst hp; simp [lookup] at h
            · rename_i hp
              refine ih cs cs' ?_
              cases ps with
              | nil => exact absurd rfl hp
              | cons k ks => exact h

/-- C25, consequence: two files at the same path are chosen between by their time. -/
theorem c25_file_conflict (o : Overwrite) (old new : List Node) (p : Bytes) (n t d n' t' d')
    (hx : entry old p = some (.file n t d)) (hy : entry new p = some (.file n' t' d')) :
    merged o old new [p] = some (match o with
      | .none => .file n t d
      | .all => .file n' t' d'
      | .newer => if t > t' then .file n' t' d' else .file n t d
      | .older => if t < t' then .file n' t' d' else .file n t d) := by
  cases o with
  | none =>
    have : ¬ takesPlace .none (Node.file n t d).time (Node.file n' t' d').time := id
    simp [merged, hx, hy, lookup, info, this]
  | all =>
    have : takesPlace .all (Node.file n t d).time (Node.file n' t' d').time := trivial
    simp [merged, hx, hy, lookup, info, this]
  | newer =>
    have : takesPlace .newer (Node.file n t d).time (Node.file n' t' d').time ↔ t > t' := Iff.rfl
    simp only [merged, hx, hy, lookup, this]
    split <;> rfl
  | older =>
    have : takesPlace .older (Node.file n t d).time (Node.file n' t' d').time ↔ t < t' := Iff.rfl
    simp only [merged, hx, hy, lookup, this]
    split <;> rfl

/-- A root with a directory of two files, and a directory to be mounted over it. -/
def exRoot : Node := .dir b!"/" 0 [.dir b!"DATA" 1 [mkFile b!"a" 10 b!"old a", mkFile b!"b" 10 b!"old b"]]
def exNode : Node := .dir b!"data" 9 [mkFile b!"B" 20 b!"new b", .dir b!"c" 2 []]

example : CleanTree exNode ∧ Wf exNode ∧ Wf exRoot ∧
    mount exNode b!"" .older exRoot = .ok (.dir b!"/" 0 [.dir b!"DATA" 1
      [mkFile b!"a" 10 b!"old a", mkFile b!"B" 20 b!"new b", .dir b!"c" 2 []]]) ∧
    mount exNode b!"/" .newer exRoot = .ok (.dir b!"/" 0 [.dir b!"DATA" 1
      [mkFile b!"a" 10 b!"old a", mkFile b!"b" 10 b!"old b", .dir b!"c" 2 []]]) := by
  refine ⟨?_, ?_, ?_, by decide, by decide⟩
  · refine CleanTree.dir _ _ _ (by decide) ?_
    simp only [List.mem_cons, List.not_mem_nil, or_false, forall_eq_or_imp, forall_eq]
    exact ⟨CleanTree.file _ _ _ (by decide), CleanTree.dir _ _ _ (by decide) (by simp)⟩
  · refine Wf.dir _ _ _ (by unfold Ordered; decide) ?_
    simp only [List.mem_cons, List.not_mem_nil, or_false, forall_eq_or_imp, forall_eq]
    exact ⟨Wf.file _ _ _, Wf.dir _ _ _ (by unfold Ordered; decide) (by simp)⟩
  · refine Wf.dir _ _ _ (by unfold Ordered; decide) ?_
    simp only [List.mem_singleton, forall_eq]
    refine Wf.dir _ _ _ (by unfold Ordered; decide) ?_
    simp only [List.mem_cons, List.not_mem_nil, or_false, forall_eq_or_imp, forall_eq]
    exact ⟨Wf.file _ _ _, Wf.file _ _ _⟩

/-! ## C61 -/

theorem rslash_none {p : Bytes} (h : rslash p = none) : ∀ c ∈ p, c ≠ 47 := by
  unfold rslash at h
  split at h
  · rename_i he
    rw [List.findIdx?_eq_none_iff] at he
    intro c hc e
    have := he c (by simpa using hc)
    simp [e] at this
  · cases h

theorem rslash_some {p : Bytes} {i : Nat} (h : rslash p = some i) :
    p = p.take i ++ 47 :: p.drop (i + 1) ∧ ∀ c ∈ p.drop (i + 1), c ≠ 47 := by
  unfold rslash at h
  split at h
  · cases h
  · rename_i j hj
    injection h with h
    rw [List.findIdx?_eq_some_iff_getElem] at hj
    obtain ⟨hlt, h1, h2⟩ := hj
    rw [List.length_reverse] at hlt
    have hi : i < p.length := by omega
    have h47 : p[i] = 47 := by
      rw [List.getElem_reverse] at h1
      have : p[p.length - 1 - j] = 47 := by simpa using h1
      subst h; exact this
    refine ⟨?_, ?_⟩
    · conv => lhs; rw [← List.take_append_drop i p, List.drop_eq_getElem_cons hi, h47]
    · intro c hc e
      rw [List.mem_iff_getElem] at hc
      obtain ⟨k, hk, hc⟩ := hc
      rw [List.length_drop] at hk
      rw [List.getElem_drop] at hc
      have hkj : p.length - 1 - (i + 1 + k) < j := by omega
      have := h2 _ hkj
      rw [List.getElem_reverse] at this
      have e2 : p.length - 1 - (p.length - 1 - (i + 1 + k)) = i + 1 + k := by omega
      simp only [e2, hc, e] at this
      simp at this

theorem split_append (a b : Bytes) : split (a ++ 47 :: b) = split a ++ split b := by
  induction a with
  | nil => simp [split]
  | cons c cs ih =>
    simp only [List.cons_append, split, ih]
    split
    · simp
    · cases h : split cs with
      | nil => exact absurd h (split_ne_nil cs)
      | cons x xs => simp

theorem comps_append (a b : Bytes) : comps (a ++ 47 :: b) = comps a ++ comps b := by
  unfold comps; rw [split_append, List.filter_append]

theorem comps_single {b : Bytes} (hb : b ≠ []) (h : ∀ c ∈ b, c ≠ 47) : comps b = [b] := by
  unfold comps; rw [split_noslash h]; simp [hb]

theorem Node.remove_dir (name : Bytes) (n t cs) :
    Node.remove name (.dir n t cs) = .ok (.dir n t (removeIn name cs).1, (removeIn name cs).2) := rfl

theorem removeIn_snd {name : Bytes} {cs : List Node} (h : Ordered cs) :
    (removeIn name cs).2 = (entry cs name).isSome := by
  rw [← childIn_eq _ _ h]
  simp only [childIn, removeIn]
  cases setFind (trim name) cs with
  | none => rfl
  | some x => cases hi : iequals x.name (trim name) <;> simp [hi]

theorem lookup_append (x : Node) (a b : List Bytes) :
    lookup x (a ++ b) = (lookup x a).bind (fun y => lookup y b) := by
  induction a generalizing x with
  | nil => rfl
  | cons p ps ih =>
    cases x with
    | file n t d => rfl
    | dir n t cs =>
      rw [List.cons_append, lookup_cons, lookup_cons]
      cases entry cs p with
      | none => rfl
      | some c => exact ih c

theorem strip_snoc (a : List Bytes) (n : Bytes) (q : List Bytes) :
    strip (a ++ [n]) q = (strip a q).bind (fun r => strip [n] r) := by
  induction a generalizing q with
  | nil => rfl
  | cons x xs ih =>
    cases q with
    | nil => rfl
    | cons y ys =>
      simp only [List.cons_append, strip]
      split
      · exact ih ys
      · rfl

/-- C61: removing a path tells whether there was a node, removes exactly that node with everything below it and
keeps everything else. The path must not end in a slash. When the parent of the path is a file or lies behind one,
`remove` throws or terminates. -/
theorem c61_remove (root : Node) (h : Wf root) (path parent name : Bytes) (hn : name ≠ [])
    (hns : ∀ c ∈ name, c ≠ 47) (hp : path = name ∧ parent = [] ∨ path = parent ++ 47 :: name)
    (hpar : ∀ n t d, lookup root (comps parent) ≠ some (.file n t d))
    (hthr : ¬ ThroughFile root (comps parent)) :
    ∃ root' b, remove path root = .ok (root', b) ∧ Wf root' ∧
      (b = true ↔ ∃ x, lookup root (comps path) = some x) ∧
      ∀ q, (lookup root' q).map info =
        if (strip (comps path) q).isSome then none else (lookup root q).map info := by
  have hsplit : parentOf path = parent ∧ nameOf path = name := by
    unfold parentOf nameOf
    rcases hp with ⟨rfl, rfl⟩ | hp
    · cases hr : rslash path with
      | none => exact ⟨rfl, rfl⟩
      | some i =>
        have := (rslash_some hr).1
        exact absurd rfl (hns 47 (by rw [this]; simp))
    · cases hr : rslash path with
      | none =>
        have := rslash_none hr 47 (by rw [hp]; simp)
        exact absurd rfl this
      | some i =>
        obtain ⟨h1, h2⟩ := rslash_some hr
        dsimp only
        have e : path.take i ++ 47 :: path.drop (i + 1) = parent ++ 47 :: name := h1.symm.trans hp
        generalize path.take i = a at e ⊢
        generalize path.drop (i + 1) = b at e h2 ⊢
        clear h1 hr hp
        rw [List.append_eq_append_iff] at e
        rcases e with ⟨l, e1, e2⟩ | ⟨l, e1, e2⟩
        · cases l with
          | nil => simp at e1 e2; exact ⟨e1.symm, e2⟩
          | cons z zs =>
            simp only [List.cons_append, List.cons.injEq] at e2
            exact absurd rfl (h2 47 (by rw [e2.2]; simp))
        · cases l with
          | nil => simp at e1 e2; exact ⟨e1, e2.symm⟩
          | cons z zs =>
            simp only [List.cons_append, List.cons.injEq] at e2
            exact absurd rfl (hns 47 (by rw [e2.2]; simp))
  have hcomps : comps path = comps parent ++ [name] := by
    rcases hp with ⟨rfl, rfl⟩ | hp
    · rw [comps_single hn hns]; rfl
    · rw [hp, comps_append, comps_single hn hns]
  unfold remove
  rw [hsplit.1, hsplit.2, resolveWith_eq _ _ _ _ (by omega), hcomps]
  have hname : ∀ n n' a, Node.remove name n = .ok (n', a) → n'.name = n.name := by
    intro n n' a he
    cases n with
    | file => simp [Node.remove, Node.children, bind, Except.bind] at he
    | dir => rw [Node.remove_dir] at he; injection he with he; injection he with he; rw [← he]; rfl
  cases hl : lookup root (comps parent) with
  | none =>
    have hnone : ∀ q, (strip (comps parent ++ [name]) q).isSome = true → lookup root q = none := by
      intro q hq
      have : ∀ (a : List Bytes) (x : Node) (q : List Bytes), Wf x → lookup x a = none → (strip a q).isSome = true → lookup x q = none := by
        intro a
        induction a with
        | nil => intro x q _ hx; simp [lookup] at hx
        | cons y ys ih =>
          intro x q hw hx hs
          cases q with
          | nil => simp [strip] at hs
          | cons z zs =>
            simp only [strip] at hs
            split at hs
            · rename_i hk
              cases x with
              | file => rfl
              | dir n t cs =>
                rw [lookup_cons] at hx ⊢
                rw [← entry_congr hk]
                cases hc : entry cs y with
                | none => rfl
                | some c =>
                  rw [hc] at hx
                  exact ih c zs (hw.kids (entry_mem hc)) hx hs
            · simp at hs
      refine this (comps parent) root q h hl ?_
      rw [strip_snoc] at hq
      cases hs : strip (comps parent) q with
      | none => rw [hs] at hq; simp at hq
      | some r => rfl
    cases hr : resolveC (Node.remove name) root (comps parent) with
    | error e =>
      rcases resolveC_error h hr with ⟨_, h2⟩ | ⟨x, h3, _⟩
      · exact absurd h2 hthr
      · rw [hl] at h3; cases h3
    | ok y =>
      cases y with
      | some z =>
        obtain ⟨_, x, x', h1, _⟩ := resolveC_some hname h hr
        rw [hl] at h1; cases h1
      | none =>
        refine ⟨root, false, rfl, h, ?_, ?_⟩
        · rw [lookup_append, hl]; simp
        · intro q
          split
          · rename_i hq; rw [hnone q hq]; rfl
          · rfl
  | some x =>
    cases x with
    | file n t d => exact absurd hl (hpar n t d)
    | dir n t cs =>
      have hw := lookup_wf h hl
      obtain ⟨r, hr⟩ := resolveC_total (f := Node.remove name) h hl (Node.remove_dir name n t cs)
      rw [hr]
      obtain ⟨_, x, x', h1, h2, h3⟩ := resolveC_some hname h hr
      rw [hl] at h1
      injection h1 with h1
      subst h1
      rw [Node.remove_dir] at h2
      injection h2 with h2
      injection h2 with h2
      subst h2
      refine ⟨r, _, rfl, ?_, ?_, ?_⟩
      · refine wf_resolveC (f := Node.remove name) ?_ root _ h hr
        intro m m' a hm he
        cases m with
        | file => simp [Node.remove, Node.children, bind, Except.bind] at he
        | dir n t cs =>
          rw [Node.remove_dir] at he
          injection he with he
          injection he with he
          rw [← he]
          exact wf_remove hm.ordered (fun _ => hm.kids) _ _
      · rw [removeIn_snd hw.ordered, lookup_append, hl]
        simp only [Option.bind_some, lookup_cons]
        cases entry cs name with
        | none => simp
        | some c => simp [lookup]
      · intro q
        rw [h3 q, strip_snoc]
        cases hs : strip (comps parent) q with
        | none => rfl
        | some q2 =>
          have hq : ∀ (a q q2 : List Bytes) (x y : Node), Wf x → lookup x a = some y → strip a q = some q2 →
              lookup x q = lookup y q2 := by
            intro a
            induction a with
            | nil =>
              intro q q2 x y _ hx hs
              simp only [lookup, Option.some.injEq] at hx
              simp only [strip, Option.some.injEq] at hs
              rw [hx, hs]
            | cons b bs ih =>
              intro q q2 x y hw hx hs
              cases q with
              | nil => simp [strip] at hs
              | cons z zs =>
                simp only [strip] at hs
                split at hs
                · rename_i hk
                  cases x with
                  | file => simp [lookup] at hx
                  | dir n t cs =>
                    rw [lookup_cons] at hx ⊢
                    rw [← entry_congr hk]
                    cases hc : entry cs b with
                    | none => rw [hc] at hx; cases hx
                    | some c =>
                      rw [hc] at hx
                      exact ih zs q2 c y (hw.kids (entry_mem hc)) hx hs
                · cases hs
          rw [hq _ _ _ _ _ h hl hs]
          cases q2 with
          | nil => rfl
          | cons k ks =>
            dsimp only
            rw [lookup_cons, lookup_cons, entry_remove hw.ordered]
            by_cases hk : key name = key k
            · rw [if_pos hk]; simp [strip, hk]
            · rw [if_neg hk]; simp [strip, hk]

example : remove b!"data/A" exRoot =
    .ok (.dir b!"/" 0 [.dir b!"DATA" 1 [mkFile b!"b" 10 b!"old b"]], true) ∧
    remove b!"data/c" exRoot = .ok (exRoot, false) ∧ remove b!"DATA" exRoot = .ok (.dir b!"/" 0 [], true) := by
  decide

/-! ## C62 -/

mutual
theorem count_pos : ∀ n : Node, 0 < count n
  | .file _ _ _ => by simp [count]
  | .dir _ _ _ => by simp only [count]; omega
end

theorem countAll_append (a b : List Node) : countAll (a ++ b) = countAll a + countAll b := by
  induction a with
  | nil => simp [countAll]
  | cons x xs ih => simp only [List.cons_append, countAll, ih]; omega

theorem countAll_filter_reverse (p : Node → Bool) (a : List Node) : countAll (a.filter p).reverse ≤ countAll a := by
  induction a with
  | nil => simp [countAll]
  | cons x xs ih =>
    rw [List.filter_cons]
    split
    · rw [List.reverse_cons, countAll_append]
      simp only [countAll]; omega
    · simp only [countAll]; omega

/-- What the search promises about a stack of directories. -/
theorem findLoop_spec (name : Bytes) (fuel : Nat) (stack : List Node) (hfuel : countAll stack < fuel)
    (hw : ∀ n ∈ stack, Wf n) (hd : ∀ n ∈ stack, n.isFile = false) :
    ∃ r, findLoop name fuel stack = .ok r ∧
      match r with
      | some x => ∃ d ∈ stack, ∃ n t cs, Spec.Inside d (.dir n t cs) ∧ entry cs name = some x
      | none => ∀ d ∈ stack, ∀ n t cs, Spec.Inside d (.dir n t cs) → entry cs name = none := by
  induction fuel generalizing stack with
  | zero => omega
  | succ fuel ih =>
    cases stack with
    | nil => exact ⟨none, rfl, by simp⟩
    | cons d stack =>
      obtain ⟨n, t, cs, rfl⟩ := isFile_false (hd d (by simp))
      have hwd := hw _ (List.mem_cons_self ..)
      simp only [findLoop, Node.children]
      rw [childIn_eq _ _ hwd.ordered]
      cases he : entry cs name with
      | some x => exact ⟨some x, rfl, _, by simp, n, t, cs, .self _, he⟩
      | none =>
        have hpos := countAll_filter_reverse (fun x => !x.isFile) cs
        simp only [countAll, count] at hfuel
        obtain ⟨r, h1, h2⟩ := ih ((cs.filter (fun x => !x.isFile)).reverse ++ stack)
          (by rw [countAll_append]; omega)
          (by
            intro m hm
            simp only [List.mem_append, List.mem_reverse, List.mem_filter] at hm
            rcases hm with ⟨hm, _⟩ | hm
            · exact hwd.kids hm
            · exact hw m (by simp [hm]))
          (by
            intro m hm
            simp only [List.mem_append, List.mem_reverse, List.mem_filter] at hm
            rcases hm with ⟨_, hm⟩ | hm
            · simpa using hm
            · exact hd m (by simp [hm]))
        refine ⟨r, h1, ?_⟩
        cases r with
        | some x =>
          obtain ⟨d, hm, n', t', cs', h3, h4⟩ := h2
          simp only [List.mem_append, List.mem_reverse, List.mem_filter] at hm
          rcases hm with ⟨hm, _⟩ | hm
          · exact ⟨.dir n t cs, by simp, n', t', cs', .kid hm h3, h4⟩
          · exact ⟨d, by simp [hm], n', t', cs', h3, h4⟩
        | none =>
          intro d hm n' t' cs' h3
          rcases List.mem_cons.1 hm with rfl | hm
          · cases h3 with
            | self => exact he
            | kid hc h3 =>
              rename_i c
              refine h2 c ?_ n' t' cs' h3
              simp only [List.mem_append, List.mem_reverse, List.mem_filter]
              refine Or.inl ⟨hc, ?_⟩
              cases c with
              | file => cases h3
              | dir => rfl
          · exact h2 d (by simp [hm]) n' t' cs' h3

/-- C62: `find` always returns; what it finds is an entry of that name of some directory, and it finds nothing only
when no directory of the tree has such an entry. -/
theorem c62_find (root : Node) (h : Wf root) (hd : root.isFile = false) (name : Bytes) :
    ∃ r, find name root = .ok r ∧
      match r with
      | some x => ∃ n t cs, Spec.Inside root (.dir n t cs) ∧ entry cs name = some x
      | none => ∀ n t cs, Spec.Inside root (.dir n t cs) → entry cs name = none := by
  obtain ⟨r, h1, h2⟩ := findLoop_spec name (count root + 1) [root] (by simp [countAll])
    (by simpa using h) (by simpa using hd)
  refine ⟨r, h1, ?_⟩
  cases r with
  | some x =>
    obtain ⟨d, hm, h3⟩ := h2
    simp only [List.mem_singleton] at hm
    subst hm; exact h3
  | none => exact h2 root (by simp)

example : find b!"B" exRoot = .ok (some (mkFile b!"b" 10 b!"old b")) ∧ find b!"zz" exRoot = .ok none := by decide

end Verif.Props
