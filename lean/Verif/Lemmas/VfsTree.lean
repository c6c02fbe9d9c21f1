import Verif.Lemmas.VfsPath

/-!
# What is found at the paths of a changed tree
-/

namespace Verif.Vfs

open Verif.Spec

theorem key_idem (n : Bytes) : key (rtrim n) = key n := by unfold key; rw [rtrim_rtrim]

theorem entry_congr {cs : List Node} {a b : Bytes} (h : key a = key b) : entry cs a = entry cs b := by
  unfold entry; rw [h]

/-- An entry that was found is replaced by a node with the same name. -/
theorem entry_replace {cs : List Node} (ho : Ordered cs) {p : Bytes} {c c' : Node} (hc : entry cs p = some c)
    (hn : c'.name = c.name) (m : Bytes) :
    entry (setReplace c' cs) m = if key p = key m then some c' else entry cs m := by
  have hf := entry_fold hc
  unfold entry at hc ⊢
  rw [← hf, ← hn] at hc
  rw [find?_replace ho hc (key m), hn, hf]

theorem setReplace_self {cs : List Node} (ho : Ordered cs) {c : Node} (hc : c ∈ cs) : setReplace c cs = cs := by
  have hs : setFind c.name cs = some c := by rw [setFind_eq _ _ ho]; exact find?_self ho hc
  unfold setReplace
  conv => rhs; rw [← below_above c.name cs]
  congr 1
  unfold setFind at hs
  cases ha : above c.name cs with
  | nil => rw [ha] at hs; cases hs
  | cons z zs =>
    rw [ha] at hs
    dsimp only at hs
    split at hs
    · cases hs
    · injection hs with hs; rw [hs]; rfl

theorem lookup_cons (n t cs p ps) : lookup (.dir n t cs) (p :: ps) =
    match entry cs p with
    | none => none
    | some c => lookup c ps := rfl

theorem lookup_wf {x y : Node} {q : List Bytes} (h : Wf x) (hl : lookup x q = some y) : Wf y := by
  induction q generalizing x with
  | nil => simp only [lookup, Option.some.injEq] at hl; rw [← hl]; exact h
  | cons p ps ih =>
    cases x with
    | file n t d => simp [lookup] at hl
    | dir n t cs =>
      rw [lookup_cons] at hl
      cases he : entry cs p with
      | none => rw [he] at hl; simp at hl
      | some c => rw [he] at hl; exact ih (h.kids (entry_mem he)) hl

/-! ## Resolving -/

/-- `resolveC` finds the node at the path, or does not depend on the change. -/
theorem resolveC_some {α} {f : Node → Except Fail (Node × α)} (hname : ∀ n n' a, f n = .ok (n', a) → n'.name = n.name)
    {ctx : Node} {ps : List Bytes} (h : Wf ctx) {r : Node} {a : α} (hr : resolveC f ctx ps = .ok (some (r, a))) :
    r.name = ctx.name ∧ ∃ x x', lookup ctx ps = some x ∧ f x = .ok (x', a) ∧
      ∀ q, (lookup r q).map info = match strip ps q with
        | some q2 => (lookup x' q2).map info
        | none => (lookup ctx q).map info := by
  induction ps generalizing ctx r with
  | nil =>
    simp only [resolveC] at hr
    cases hc : f ctx with
    | error e => rw [hc] at hr; simp [Except.map] at hr
    | ok y =>
      rw [hc] at hr
      simp only [Except.map, Except.ok.injEq, Option.some.injEq] at hr
      subst hr
      exact ⟨hname _ _ _ hc, ctx, r, rfl, hc, fun q => rfl⟩
  | cons p ps ih =>
    cases ctx with
    | file n t d => simp [resolveC] at hr
    | dir n t cs =>
      simp only [resolveC] at hr
      rw [childIn_eq _ _ h.ordered] at hr
      cases hc : entry cs p with
      | none => rw [hc] at hr; simp at hr
      | some c =>
        rw [hc] at hr
        dsimp only at hr
        cases hq : resolveC f c ps with
        | error e => rw [hq] at hr; simp at hr
        | ok o =>
          cases o with
          | none => rw [hq] at hr; simp at hr
          | some y =>
            obtain ⟨c', b⟩ := y
            rw [hq] at hr
            simp only [Except.ok.injEq, Option.some.injEq, Prod.mk.injEq] at hr
            obtain ⟨rfl, rfl⟩ := hr
            obtain ⟨hn, x, x', hx, hfx, hl⟩ := ih (h.kids (entry_mem hc)) hq
            refine ⟨rfl, x, x', ?_, hfx, ?_⟩
            · rw [lookup_cons, hc]; exact hx
            · intro q
              cases q with
              | nil => rfl
              | cons m q =>
                rw [lookup_cons, lookup_cons, entry_replace h.ordered hc hn]
                simp only [strip]
                by_cases hk : key p = key m
                · rw [if_pos hk, if_pos hk]
                  dsimp only
                  rw [hl q, ← entry_congr hk, hc]
                · rw [if_neg hk, if_neg hk]

theorem resolveC_none {α} {f : Node → Except Fail (Node × α)} {ctx : Node} {ps : List Bytes} (h : Wf ctx)
    (hr : resolveC f ctx ps = .ok none) : lookup ctx ps = none := by
  induction ps generalizing ctx with
  | nil =>
    simp only [resolveC] at hr
    cases hc : f ctx with
    | error e => rw [hc] at hr; simp [Except.map] at hr
    | ok y => rw [hc] at hr; simp [Except.map] at hr
  | cons p ps ih =>
    cases ctx with
    | file n t d => simp [resolveC] at hr
    | dir n t cs =>
      simp only [resolveC] at hr
      rw [childIn_eq _ _ h.ordered] at hr
      rw [lookup_cons]
      cases hc : entry cs p with
      | none => rfl
      | some c =>
        rw [hc] at hr
        dsimp only at hr ⊢
        cases hq : resolveC f c ps with
        | error e => rw [hq] at hr; simp at hr
        | ok o =>
          cases o with
          | none => exact ih (h.kids (entry_mem hc)) hq
          | some y => rw [hq] at hr; simp at hr

/-- The path leads through a file. -/
def ThroughFile (ctx : Node) (ps : List Bytes) : Prop :=
  ∃ a b n t d, ps = a ++ b ∧ b ≠ [] ∧ lookup ctx a = some (.file n t d)

theorem throughFile_lookup {ctx : Node} {ps : List Bytes} (h : ThroughFile ctx ps) : lookup ctx ps = none := by
  obtain ⟨a, b, n, t, d, rfl, hb, hl⟩ := h
  induction a generalizing ctx with
  | nil =>
    simp only [lookup, Option.some.injEq] at hl
    subst hl
    cases b with
    | nil => exact absurd rfl hb
    | cons x xs => rfl
  | cons p ps ih =>
    cases ctx with
    | file n t d => rfl
    | dir n t cs =>
      rw [lookup_cons] at hl
      rw [List.cons_append, lookup_cons]
      cases hc : entry cs p with
      | none => rfl
      | some c => rw [hc] at hl; exact ih hl

theorem resolveC_throughFile {α} {f : Node → Except Fail (Node × α)} {ctx : Node} {ps : List Bytes} (h : Wf ctx)
    (ht : ThroughFile ctx ps) : resolveC f ctx ps = .error .terminate := by
  obtain ⟨a, b, n, t, d, rfl, hb, hl⟩ := ht
  induction a generalizing ctx with
  | nil =>
    simp only [lookup, Option.some.injEq] at hl
    subst hl
    cases b with
    | nil => exact absurd rfl hb
    | cons x xs => rfl
  | cons p ps ih =>
    cases ctx with
    | file n t d => rfl
    | dir n t cs =>
      rw [lookup_cons] at hl
      simp only [List.cons_append, resolveC]
      rw [childIn_eq _ _ h.ordered]
      cases hc : entry cs p with
      | none => rw [hc] at hl; simp at hl
      | some c =>
        rw [hc] at hl
        dsimp only
        rw [ih (h.kids (entry_mem hc)) hl]

/-- A failure comes from the change or from a file in the path. -/
theorem resolveC_error {α} {f : Node → Except Fail (Node × α)} {ctx : Node} {ps : List Bytes} (h : Wf ctx) {e : Fail}
    (hr : resolveC f ctx ps = .error e) :
    (e = .terminate ∧ ThroughFile ctx ps) ∨ ∃ x, lookup ctx ps = some x ∧ f x = .error e := by
  induction ps generalizing ctx with
  | nil =>
    simp only [resolveC] at hr
    cases hc : f ctx with
    | error e' =>
      rw [hc] at hr; simp only [Except.map, Except.error.injEq] at hr
      subst hr
      exact Or.inr ⟨ctx, rfl, hc⟩
    | ok y => rw [hc] at hr; simp [Except.map] at hr
  | cons p ps ih =>
    cases ctx with
    | file n t d =>
      simp only [resolveC, Except.error.injEq] at hr
      exact Or.inl ⟨hr.symm, [], p :: ps, n, t, d, rfl, by simp, rfl⟩
    | dir n t cs =>
      simp only [resolveC] at hr
      rw [childIn_eq _ _ h.ordered] at hr
      cases hc : entry cs p with
      | none => rw [hc] at hr; simp at hr
      | some c =>
        rw [hc] at hr
        dsimp only at hr
        cases hq : resolveC f c ps with
        | error e' =>
          rw [hq] at hr
          simp only [Except.error.injEq] at hr
          subst hr
          rcases ih (h.kids (entry_mem hc)) hq with ⟨h1, a, b, n', t', d', h2, h3, h4⟩ | ⟨x, h1, h2⟩
          · exact Or.inl ⟨h1, p :: a, b, n', t', d', by rw [h2]; rfl, h3, by rw [lookup_cons, hc]; exact h4⟩
          · exact Or.inr ⟨x, by rw [lookup_cons, hc]; exact h1, h2⟩
        | ok o =>
          rw [hq] at hr
          cases o with
          | none => simp at hr
          | some y => simp at hr

/-- When the change succeeds, so does the whole. -/
theorem resolveC_total {α} {f : Node → Except Fail (Node × α)} {ctx : Node} {ps : List Bytes} (h : Wf ctx) {x : Node}
    (hl : lookup ctx ps = some x) {x' : Node} {a : α} (hf : f x = .ok (x', a)) :
    ∃ r, resolveC f ctx ps = .ok (some (r, a)) := by
  induction ps generalizing ctx with
  | nil =>
    simp only [lookup, Option.some.injEq] at hl
    subst hl
    exact ⟨x', by simp [resolveC, hf, Except.map]⟩
  | cons p ps ih =>
    cases ctx with
    | file n t d => simp [lookup] at hl
    | dir n t cs =>
      rw [lookup_cons] at hl
      cases hc : entry cs p with
      | none => rw [hc] at hl; simp at hl
      | some c =>
        rw [hc] at hl
        obtain ⟨r, hr⟩ := ih (h.kids (entry_mem hc)) hl
        refine ⟨.dir n t (setReplace r cs), ?_⟩
        simp only [resolveC]
        rw [childIn_eq _ _ h.ordered, hc]
        dsimp only
        rw [hr]

/-! ## Creating directories -/

theorem isFile_false {n : Node} (h : n.isFile = false) : ∃ m t cs, n = .dir m t cs := by
  cases n with
  | file n t d => simp [Node.isFile] at h
  | dir m t cs => exact ⟨m, t, cs, rfl⟩

theorem mkdirC_name (now : Int) {ctx : Node} {ps : List Bytes} {r q : Node} (hr : mkdirC now ctx ps = .ok (r, q)) :
    info r = info ctx := by
  cases ps with
  | nil => simp only [mkdirC, Except.ok.injEq, Prod.mk.injEq] at hr; rw [← hr.1]
  | cons p ps =>
    cases ctx with
    | file n t d => simp [mkdirC] at hr
    | dir n t cs =>
      simp only [mkdirC] at hr
      split at hr
      · split at hr
        · simp at hr
        · simp only [Except.ok.injEq, Prod.mk.injEq] at hr; rw [← hr.1]; rfl
      · split at hr
        · simp at hr
        · split at hr
          · simp at hr
          · simp only [Except.ok.injEq, Prod.mk.injEq] at hr; rw [← hr.1]; rfl

theorem info_name {a b : Node} (h : info a = info b) : a.name = b.name := by
  cases a <;> cases b <;> simp [info] at h <;> simp [Node.name, h]

theorem info_isFile {a b : Node} (h : info a = info b) : a.isFile = b.isFile := by
  cases a <;> cases b <;> simp [info] at h <;> simp [Node.isFile]

/-- The effect of `mkdir`. -/
theorem mkdirC_spec (now : Int) {ctx : Node} {ps : List Bytes} (h : Wf ctx) (hd : ctx.isFile = false)
    (hc : ∀ p ∈ ps, Clean p) {r q : Node} (hr : mkdirC now ctx ps = .ok (r, q)) :
    lookup r ps = some q ∧ q.isFile = false ∧
    (∀ now', mkdirC now' r ps = .ok (r, q)) ∧
    (∀ m, (∀ x, lookup ctx m = some x → (lookup r m).map info = some (info x)) ∧
      (lookup ctx m = none → lookup r m = none ∨ ∃ a b, ps = a ++ b ∧ a.map key = m.map key ∧
        ∃ l, a.getLast? = some l ∧ (lookup r m).map info = some (.dir l now))) := by
  induction ps generalizing ctx r with
  | nil =>
    simp only [mkdirC, Except.ok.injEq, Prod.mk.injEq] at hr
    obtain ⟨rfl, rfl⟩ := hr
    refine ⟨rfl, hd, fun _ => rfl, fun m => ⟨fun x hx => by rw [hx]; rfl, fun hn => Or.inl hn⟩⟩
  | cons p ps ih =>
    obtain ⟨n, t, cs, rfl⟩ := isFile_false hd
    have hp : Clean p := hc p (by simp)
    have hcs : ∀ x ∈ ps, Clean x := fun x hx => hc x (by simp [hx])
    have hold := hr
    simp only [mkdirC] at hr
    rw [childIn_eq _ _ h.ordered] at hr
    cases he : entry cs p with
    | none =>
      rw [he] at hr
      dsimp only at hr
      have hnew : Wf (.dir p now []) := Wf.dir _ _ _ List.Pairwise.nil (by simp)
      have hsnd := create_snd (n := .dir p now []) hp h.ordered
      have hentry := entry_create (n := .dir p now []) hp h.ordered
      have hwf := wf_create hnew h.ordered (fun _ => h.kids) n t
      rw [hsnd] at hr
      cases hq : mkdirC now (.dir p now []) ps with
      | error e => rw [hq] at hr; simp at hr
      | ok o =>
        obtain ⟨c', q'⟩ := o
        rw [hq] at hr
        simp only [Except.ok.injEq, Prod.mk.injEq] at hr
        obtain ⟨rfl, rfl⟩ := hr
        have hi := mkdirC_name now hq
        have hn := info_name hi
        obtain ⟨h1, h2, h3, h4⟩ := ih hnew rfl hcs hq
        have hcr : entry (createIn (.dir p now []) cs).1 p = some (.dir p now []) := by
          rw [hentry]; exact if_pos rfl
        have hre : ∀ m, entry (setReplace c' (createIn (.dir p now []) cs).1) m =
            if key p = key m then some c' else entry cs m := by
          intro m
          rw [entry_replace hwf.ordered hcr hn, hentry]
          split
          · rfl
          · rename_i hne; exact if_neg hne
        have hself : entry (setReplace c' (createIn (.dir p now []) cs).1) p = some c' := by rw [hre, if_pos rfl]
        refine ⟨?_, h2, ?_, ?_⟩
        · rw [lookup_cons, hself]; exact h1
        · intro now'
          simp only [mkdirC]
          rw [childIn_eq _ _ (ordered_replace hwf.ordered), hself]
          have hf : c'.isFile = false := (info_isFile hi).trans rfl
          dsimp only
          rw [hf]
          simp only [Bool.false_eq_true, if_false]
          rw [h3 now']
          dsimp only
          rw [setReplace_self (ordered_replace hwf.ordered) (entry_mem hself)]
        · intro m
          cases m with
          | nil => exact ⟨fun x hx => by
              simp only [lookup, Option.some.injEq] at hx; subst hx; rfl, fun hx => by simp [lookup] at hx⟩
          | cons k m =>
            rw [lookup_cons, lookup_cons, hre]
            by_cases hk : key p = key k
            · rw [if_pos hk, ← entry_congr hk, he]
              refine ⟨fun x hx => by simp at hx, fun _ => ?_⟩
              dsimp only
              cases m with
              | nil =>
                refine Or.inr ⟨[p], ps, rfl, by simp [hk], p, rfl, ?_⟩
                simp only [lookup, Option.map_some, hi]; rfl
              | cons k2 m =>
                rcases (h4 (k2 :: m)).2 (by simp [lookup_cons, entry]) with h5 | ⟨a, b, h5, h6, l, h7, h8⟩
                · exact Or.inl h5
                · refine Or.inr ⟨p :: a, b, by rw [h5]; rfl, by simp [hk, h6], l, ?_, h8⟩
                  cases a with
                  | nil => simp at h6
                  | cons a0 a => rw [List.getLast?_cons_cons]; exact h7
            · rw [if_neg hk]
              exact ⟨fun x hx => by rw [hx]; rfl, fun hx => Or.inl hx⟩
    | some c =>
      rw [he] at hr
      dsimp only at hr
      split at hr
      · simp at hr
      · rename_i hf
        have hf : c.isFile = false := by simpa using hf
        cases hq : mkdirC now c ps with
        | error e => rw [hq] at hr; simp at hr
        | ok o =>
          obtain ⟨c', q'⟩ := o
          rw [hq] at hr
          simp only [Except.ok.injEq, Prod.mk.injEq] at hr
          obtain ⟨rfl, rfl⟩ := hr
          have hi := mkdirC_name now hq
          have hn := info_name hi
          obtain ⟨h1, h2, h3, h4⟩ := ih (h.kids (entry_mem he)) hf hcs hq
          have hre := entry_replace h.ordered he hn
          have hself : entry (setReplace c' cs) p = some c' := by rw [hre, if_pos rfl]
          refine ⟨?_, h2, ?_, ?_⟩
          · rw [lookup_cons, hself]; exact h1
          · intro now'
            simp only [mkdirC]
            rw [childIn_eq _ _ (ordered_replace h.ordered), hself]
            have hf : c'.isFile = false := (info_isFile hi).trans hf
            dsimp only
            rw [hf]
            simp only [Bool.false_eq_true, if_false]
            rw [h3 now']
            dsimp only
            rw [setReplace_self (ordered_replace h.ordered) (entry_mem hself)]
          · intro m
            cases m with
            | nil => exact ⟨fun x hx => by
                simp only [lookup, Option.some.injEq] at hx; subst hx; rfl, fun hx => by simp [lookup] at hx⟩
            | cons k m =>
              rw [lookup_cons, lookup_cons, hre]
              by_cases hk : key p = key k
              · rw [if_pos hk, ← entry_congr hk, he]
                dsimp only
                refine ⟨(h4 m).1, fun hx => ?_⟩
                rcases (h4 m).2 hx with h5 | ⟨a, b, h5, h6, l, h7, h8⟩
                · exact Or.inl h5
                · refine Or.inr ⟨p :: a, b, by rw [h5]; rfl, by simp [hk, h6], l, ?_, h8⟩
                  cases a with
                  | nil => simp at h7
                  | cons a0 a => rw [List.getLast?_cons_cons]; exact h7
              · rw [if_neg hk]
                exact ⟨fun x hx => by rw [hx]; rfl, fun hx => Or.inl hx⟩

/-- `mkdir` fails exactly when a part of the path is a file. -/
theorem mkdirC_error (now : Int) {ctx : Node} {ps : List Bytes} (h : Wf ctx) (hd : ctx.isFile = false)
    (hc : ∀ p ∈ ps, Clean p) :
    (∃ a b n t d, ps = a ++ b ∧ lookup ctx a = some (.file n t d)) ∧
        mkdirC now ctx ps = .error (.throw .vfsFileExists) ∨
    (¬ ∃ a b n t d, ps = a ++ b ∧ lookup ctx a = some (.file n t d)) ∧ ∃ r q, mkdirC now ctx ps = .ok (r, q) := by
  induction ps generalizing ctx with
  | nil =>
    refine Or.inr ⟨?_, ctx, ctx, rfl⟩
    rintro ⟨a, b, n, t, d, hab, hl⟩
    have ha : a = [] := by simpa using (List.append_eq_nil_iff.1 hab.symm).1
    subst ha
    simp only [lookup, Option.some.injEq] at hl
    rw [hl] at hd; simp [Node.isFile] at hd
  | cons p ps ih =>
    obtain ⟨n, t, cs, rfl⟩ := isFile_false hd
    have hp : Clean p := hc p (by simp)
    have hcs : ∀ x ∈ ps, Clean x := fun x hx => hc x (by simp [hx])
    simp only [mkdirC]
    rw [childIn_eq _ _ h.ordered]
    cases he : entry cs p with
    | none =>
      dsimp only
      rw [create_snd (n := .dir p now []) hp h.ordered]
      have hnew : Wf (.dir p now []) := Wf.dir _ _ _ List.Pairwise.nil (by simp)
      have hno : ¬ ∃ a b n' t' d, ps = a ++ b ∧ lookup (.dir p now []) a = some (.file n' t' d) := by
        rintro ⟨a, b, n', t', d, hab, hl⟩
        cases a with
        | nil => simp [lookup] at hl
        | cons a0 a => simp [lookup_cons, entry] at hl
      rcases ih hnew rfl hcs with ⟨h1, _⟩ | ⟨_, r, q, h2⟩
      · exact absurd h1 hno
      · rw [h2]
        refine Or.inr ⟨?_, _, _, rfl⟩
        rintro ⟨a, b, n', t', d, hab, hl⟩
        cases a with
        | nil => simp [lookup] at hl
        | cons a0 a =>
          simp only [List.cons_append, List.cons.injEq] at hab
          rw [lookup_cons, ← hab.1, he] at hl
          simp at hl
    | some c =>
      dsimp only
      cases hf : c.isFile with
      | true =>
        refine Or.inl ⟨?_, by simp⟩
        cases c with
        | dir => simp [Node.isFile] at hf
        | file n' t' d => exact ⟨[p], ps, n', t', d, rfl, by rw [lookup_cons, he]; rfl⟩
      | false =>
        simp only [Bool.false_eq_true, if_false]
        have key1 : ∀ a0 a b, p :: ps = a0 :: a ++ b → lookup (.dir n t cs) (a0 :: a) = lookup c a ∧ ps = a ++ b := by
          intro a0 a b hab
          simp only [List.cons_append, List.cons.injEq] at hab
          rw [lookup_cons, ← hab.1, he]; exact ⟨rfl, hab.2⟩
        rcases ih (h.kids (entry_mem he)) hf hcs with ⟨⟨a, b, n', t', d, hab, hl⟩, h2⟩ | ⟨hno, r, q, h2⟩
        · rw [h2]
          exact Or.inl ⟨⟨p :: a, b, n', t', d, by rw [hab]; rfl, by rw [lookup_cons, he]; exact hl⟩, rfl⟩
        · rw [h2]
          refine Or.inr ⟨?_, _, _, rfl⟩
          rintro ⟨a, b, n', t', d, hab, hl⟩
          cases a with
          | nil => simp [lookup] at hl
          | cons a0 a =>
            obtain ⟨e1, e2⟩ := key1 a0 a b hab
            rw [e1] at hl
            exact hno ⟨a, b, n', t', d, e2, hl⟩

/-! ## Mounting -/

/-- What mounting makes of an entry. -/
def mergeNode (o : Overwrite) : Option Node → Node → Node
  | none, src => src
  | some (.dir n t cs), .dir _ _ kids => .dir n t (mountAll o kids cs)
  | some ex, src => if o.replaces ex.time src.time then src else ex

theorem Clean_of_tree {n : Node} (h : CleanTree n) : Clean n.name := by cases h <;> assumption

theorem entry_mountInto (o : Overwrite) (src : Node) (dest : List Node) (ho : Ordered dest) (hc : Clean src.name)
    (p : Bytes) : entry (mountInto o src dest) p =
      if key src.name = key p then some (mergeNode o (entry dest p) src) else entry dest p := by
  unfold mountInto
  rw [childIn_eq _ _ ho]
  cases he : entry dest src.name with
  | none =>
    dsimp only
    rw [entry_create hc ho]
    split
    · rename_i hk; rw [← entry_congr hk, he]; rfl
    · rfl
  | some ex =>
    have hkey : key ex.name = key src.name := by
      have hf := entry_fold he
      rw [key_clean hc] at hf ⊢
      have := fold_rtrim_congr hf
      unfold key
      rw [this, hc]
    dsimp only
    cases hff : (ex.isFile || src.isFile) with
    | true =>
      rw [if_pos rfl]
      have hm : ∀ q, key src.name = key q → mergeNode o (entry dest q) src =
          if o.replaces ex.time src.time then src else ex := by
        intro q hq
        rw [← entry_congr hq, he]
        cases ex with
        | file => rfl
        | dir n t cs =>
          cases src with
          | file => rfl
          | dir => simp [Node.isFile] at hff
      cases hr : o.replaces ex.time src.time with
      | true =>
        rw [if_pos rfl, entry_create hc (ordered_remove ho), entry_remove ho, hkey]
        by_cases hk : key src.name = key p
        · rw [if_pos hk, if_pos hk, hm p hk, hr]; rfl
        · rw [if_neg hk, if_neg hk, if_neg hk]
      | false =>
        rw [if_neg (by simp)]
        by_cases hk : key src.name = key p
        · rw [if_pos hk, hm p hk, hr, ← entry_congr hk, he]; rfl
        · rw [if_neg hk]
    | false =>
      rw [if_neg (by simp)]
      simp only [Bool.or_eq_false_iff] at hff
      cases src with
      | file => simp [Node.isFile] at hff
      | dir m u kids =>
        cases ex with
        | file => simp [Node.isFile] at hff
        | dir n t cs =>
          dsimp only
          rw [entry_replace (c' := .dir n t (mountAll o kids cs)) ho he rfl]
          by_cases hk : key (Node.dir m u kids).name = key p
          · rw [if_pos hk, if_pos hk, ← entry_congr hk, he]; rfl
          · rw [if_neg hk, if_neg hk]

theorem entry_cons (x : Node) (xs : List Node) (p : Bytes) :
    entry (x :: xs) p = if fold x.name = key p then some x else entry xs p := by
  unfold entry
  rw [List.find?_cons]
  by_cases h : fold x.name = key p
  · rw [if_pos h, beq_iff_eq.2 h]
  · rw [if_neg h, beq_eq_false_iff_ne.2 h]

theorem entry_mountAll (o : Overwrite) (kids dest : List Node) (hk : Ordered kids) (hkw : ∀ c ∈ kids, Wf c)
    (hc : ∀ c ∈ kids, Clean c.name) (ho : Ordered dest) (hw : ∀ c ∈ dest, Wf c) (p : Bytes) :
    entry (mountAll o kids dest) p = match entry kids p with
      | none => entry dest p
      | some y => some (mergeNode o (entry dest p) y) := by
  induction kids with
  | nil => unfold mountAll; rfl
  | cons x xs ih =>
    unfold mountAll
    have hwf := wf_mountAll o xs dest hk.tail (fun c hx => hkw c (by simp [hx])) ho hw
    rw [entry_mountInto o x _ hwf.1 (hc x (by simp)), entry_cons, ← key_clean (hc x (by simp)),
      ih hk.tail (fun c hx => hkw c (by simp [hx])) (fun c hx => hc c (by simp [hx]))]
    by_cases h : key x.name = key p
    · rw [if_pos h, if_pos h]
      have : entry xs p = none := by
        unfold entry
        rw [List.find?_eq_none]
        intro y hy he
        have hlt := (List.pairwise_cons.1 hk).1 y hy
        have e : fold y.name = key p := by simpa using he
        rw [key_clean (hc x (by simp))] at h
        have := ((incomparable_iff x.name y.name).2 (h.trans e.symm)).1
        rw [hlt] at this; cases this
      rw [this]
    · rw [if_neg h, if_neg h]

theorem replaces_iff (o : Overwrite) (a b : Int) : o.replaces a b = true ↔ takesPlace o a b := by
  cases o <;> simp [Overwrite.replaces, takesPlace]

/-- Mounting is the merge of the specification. -/
theorem mountAll_merged (o : Overwrite) (ps : List Bytes) (hne : ps ≠ []) (kids dest : List Node) (n t) (hk : Ordered kids)
    (hkw : ∀ c ∈ kids, Wf c) (hc : ∀ c ∈ kids, CleanTree c) (ho : Ordered dest) (hw : ∀ c ∈ dest, Wf c) :
    (lookup (.dir n t (mountAll o kids dest)) ps).map info = merged o dest kids ps := by
  induction ps generalizing kids dest n t with
  | nil => exact absurd rfl hne
  | cons p ps ih =>
    rw [lookup_cons, entry_mountAll o kids dest hk hkw (fun c hx => Clean_of_tree (hc c hx)) ho hw]
    cases hy : entry kids p with
    | none =>
      cases hx : entry dest p with
      | none => simp [merged, hx, hy]
      | some x => simp [merged, hx, hy]
    | some y =>
      cases hx : entry dest p with
      | none => simp [merged, hx, hy, mergeNode]
      | some x =>
        cases x with
        | file n' t' d' =>
          simp only [merged, hx, hy, mergeNode, ← replaces_iff]
          split <;> rfl
        | dir n' t' cs' =>
          cases y with
          | file n2 t2 d2 =>
            simp only [merged, hx, hy, mergeNode, ← replaces_iff]
            split <;> rfl
          | dir n2 t2 kids2 =>
            simp only [merged, hx, hy, mergeNode]
            by_cases hps : ps = []
            · subst hps; simp [lookup, info]
            · rw [if_neg hps]
              have hyw := hkw _ (entry_mem hy)
              have hxw := hw _ (entry_mem hx)
              have hyc := hc _ (entry_mem hy)
              refine ih hps kids2 cs' n' t' hyw.ordered (fun _ => hyw.kids) ?_ hxw.ordered (fun _ => hxw.kids)
              cases hyc; assumption

theorem mountInto_eq (o : Overwrite) (src : Node) (dest : List Node) : mountInto o src dest = mountAll o [src] dest := by
  simp only [mountAll]

end Verif.Vfs
