import Verif.Lemmas.Vfs

/-!
# Paths and changes below them
-/

namespace Verif.Vfs

open Verif.Spec

theorem split_ne_nil (p : Bytes) : split p ≠ [] := by
  cases p with
  | nil => simp [split]
  | cons c cs =>
    simp only [split]
    split
    · simp
    · split <;> simp

/-- A path without a slash is one part. -/
theorem split_noslash {p : Bytes} (h : ∀ c ∈ p, c ≠ 47) : split p = [p] := by
  induction p with
  | nil => rfl
  | cons c cs ih =>
    have hc : c ≠ 47 := h c (by simp)
    simp only [split, if_neg hc, ih (fun x hx => h x (by simp [hx]))]

theorem split_slash {a b : Bytes} (h : ∀ c ∈ a, c ≠ 47) : split (a ++ 47 :: b) = a :: split b := by
  induction a with
  | nil => simp [split]
  | cons c cs ih =>
    have hc : c ≠ 47 := h c (by simp)
    simp only [List.cons_append, split, if_neg hc, ih (fun x hx => h x (by simp [hx]))]

theorem slash_none {p : Bytes} (h : slash p = none) : ∀ c ∈ p, c ≠ 47 := by
  intro c hc he
  unfold slash at h
  rw [List.findIdx?_eq_none_iff] at h
  have := h c hc
  simp [he] at this

theorem slash_some {p : Bytes} {i : Nat} (h : slash p = some i) :
    p = p.take i ++ 47 :: p.drop (i + 1) ∧ (∀ c ∈ p.take i, c ≠ 47) ∧ i < p.length := by
  unfold slash at h
  rw [List.findIdx?_eq_some_iff_getElem] at h
  obtain ⟨hi, h1, h2⟩ := h
  refine ⟨?_, ?_, hi⟩
  · have h1 : p[i] = 47 := by simpa using h1
    conv => lhs; rw [← List.take_append_drop i p, List.drop_eq_getElem_cons hi, h1]
  · intro c hc
    rw [List.mem_take_iff_getElem] at hc
    obtain ⟨j, hj, rfl⟩ := hc
    have := h2 j (by omega)
    simpa using this

theorem comps_noslash {p : Bytes} (h : slash p = none) (hp : p ≠ []) : comps p = [p] := by
  unfold comps
  rw [split_noslash (slash_none h)]
  simp [hp]

theorem comps_slash {p : Bytes} {i : Nat} (h : slash p = some i) (hi : i ≠ 0) :
    comps p = p.take i :: comps (p.drop (i + 1)) := by
  obtain ⟨h1, h2, h3⟩ := slash_some h
  unfold comps
  conv => lhs; rw [h1, split_slash h2]
  rw [List.filter_cons_of_pos]
  have : p.take i ≠ [] := by
    intro e
    have := congrArg List.length e
    rw [List.length_take, Nat.min_eq_left (by omega)] at this
    simp at this; omega
  simpa using this

theorem comps_slash0 {p : Bytes} (h : slash p = some 0) : comps p = comps (p.drop 1) := by
  obtain ⟨h1, h2, h3⟩ := slash_some h
  unfold comps
  conv => lhs; rw [h1, split_slash h2]
  simp

theorem comps_nil : comps [] = [] := rfl

/-! ## Resolving by components -/

/-- `resolveWith` on a list of names. -/
def resolveC {α} (f : Node → Except Fail (Node × α)) : Node → List Bytes → Except Fail (Option (Node × α))
  | ctx, [] => (f ctx).map some
  | .file _ _ _, _ :: _ => .error .terminate
  | .dir n t cs, p :: ps =>
    match childIn p cs with
    | none => .ok none
    | some c =>
      match resolveC f c ps with
      | .error e => .error e
      | .ok none => .ok none
      | .ok (some (c', a)) => .ok (some (.dir n t (setReplace c' cs), a))

theorem resolveWith_eq {α} (f : Node → Except Fail (Node × α)) (fuel : Nat) (ctx : Node) (path : Bytes)
    (h : path.length < fuel) : resolveWith f fuel ctx path = resolveC f ctx (comps path) := by
  induction fuel generalizing ctx path with
  | zero => omega
  | succ fuel ih =>
    unfold resolveWith
    by_cases he : path = []
    · subst he; simp [comps_nil, resolveC]
    · have hemp : path.isEmpty = false := by simpa using he
      rw [hemp]
      simp only [Bool.false_eq_true, if_false]
      cases hs : slash path with
      | none =>
        dsimp only
        rw [comps_noslash hs he]
        cases ctx with
        | file n t d => simp [Node.child, Node.children, resolveC, bind, Except.bind]
        | dir n t cs =>
          simp only [Node.child, Node.children, resolveC, bind, Except.bind, pure, Except.pure]
          cases childIn path cs with
          | none => rfl
          | some c => rfl
      | some i =>
        obtain ⟨h1, h2, h3⟩ := slash_some hs
        cases i with
        | zero =>
          rw [comps_slash0 hs]
          exact ih _ _ (by simp; omega)
        | succ i =>
          rw [comps_slash hs (by omega)]
          cases ctx with
          | file n t d => simp [Node.child, Node.children, resolveC, bind, Except.bind]
          | dir n t cs =>
            simp only [Node.child, Node.children, resolveC, bind, Except.bind, pure, Except.pure]
            cases childIn (path.take (i + 1)) cs with
            | none => rfl
            | some c =>
              dsimp only
              rw [ih _ _ (by simp; omega)]
              rfl

/-- `mkdirLoop` on a list of names. -/
def mkdirC (now : Int) : Node → List Bytes → Except Fail (Node × Node)
  | ctx, [] => .ok (ctx, ctx)
  | .file _ _ _, _ :: _ => .error (.throw .badVariantAccess)
  | .dir n t cs, p :: ps =>
    match childIn p cs with
    | none =>
      match mkdirC now (createIn (.dir p now []) cs).2 ps with
      | .error e => .error e
      | .ok (c', r) => .ok (.dir n t (setReplace c' (createIn (.dir p now []) cs).1), r)
    | some c =>
      if c.isFile then .error (.throw .vfsFileExists)
      else match mkdirC now c ps with
      | .error e => .error e
      | .ok (c', r) => .ok (.dir n t (setReplace c' cs), r)

theorem mkdirLoop_eq (now : Int) (fuel : Nat) (ctx : Node) (path : Bytes) (h : path.length < fuel) :
    mkdirLoop now fuel ctx path = mkdirC now ctx (comps path) := by
  induction fuel generalizing ctx path with
  | zero => omega
  | succ fuel ih =>
    unfold mkdirLoop
    by_cases he : path = []
    · subst he; simp [comps_nil, mkdirC]
    · have hemp : path.isEmpty = false := by simpa using he
      rw [hemp]
      simp only [Bool.false_eq_true, if_false]
      have hpos : 0 < path.length := List.length_pos_iff.2 he
      cases hs : slash path with
      | none =>
        dsimp only
        rw [comps_noslash hs he]
        cases ctx with
        | file n t d => rfl
        | dir n t cs =>
          simp only [mkdirC]
          cases childIn path cs with
          | none =>
            dsimp only
            rw [ih _ _ (by simp; omega)]
            simp only [comps_nil, mkdirC]
          | some c =>
            dsimp only
            rw [ih _ _ (by simp; omega)]
            simp only [comps_nil, mkdirC]
      | some i =>
        obtain ⟨h1, h2, h3⟩ := slash_some hs
        cases i with
        | zero =>
          rw [comps_slash0 hs]
          exact ih _ _ (by simp; omega)
        | succ i =>
          rw [comps_slash hs (by omega)]
          cases ctx with
          | file n t d => rfl
          | dir n t cs =>
            simp only [mkdirC]
            cases childIn (path.take (i + 1)) cs with
            | none => dsimp only; rw [ih _ _ (by simp; omega)]; rfl
            | some c => dsimp only; rw [ih _ _ (by simp; omega)]; rfl

/-! ## Well-formed trees -/

theorem _root_.Verif.Spec.Wf.ordered {n t cs} (h : Wf (.dir n t cs)) : Ordered cs := by cases h; assumption
theorem _root_.Verif.Spec.Wf.kids {n t cs} (h : Wf (.dir n t cs)) {c : Node} (hc : c ∈ cs) : Wf c := by
  cases h with
  | dir _ _ _ ho hk => exact hk c hc

theorem wf_create {n : Node} {cs : List Node} (hn : Wf n) (ho : Ordered cs) (hk : ∀ c ∈ cs, Wf c) (m t) :
    Wf (.dir m t (createIn n cs).1) :=
  Wf.dir _ _ _ (ordered_create ho) (fun c hc => by
    rcases mem_create hc with rfl | hc
    · exact hn
    · exact hk c hc)

theorem wf_replace {n : Node} {cs : List Node} (hn : Wf n) (ho : Ordered cs) (hk : ∀ c ∈ cs, Wf c) (m t) :
    Wf (.dir m t (setReplace n cs)) :=
  Wf.dir _ _ _ (ordered_replace ho) (fun c hc => by
    rcases mem_replace hc with rfl | hc
    · exact hn
    · exact hk c hc)

theorem wf_remove {name : Bytes} {cs : List Node} (ho : Ordered cs) (hk : ∀ c ∈ cs, Wf c) (m t) :
    Wf (.dir m t (removeIn name cs).1) :=
  Wf.dir _ _ _ (ordered_remove ho) (fun c hc => hk c (mem_remove hc))

theorem childIn_mem {name : Bytes} {cs : List Node} (ho : Ordered cs) {x : Node} (h : childIn name cs = some x) :
    x ∈ cs := by rw [childIn_eq _ _ ho] at h; exact entry_mem h

theorem setInsert_snd_mem {n : Node} {cs : List Node} (ho : Ordered cs) :
    (setInsert n cs).2 = n ∨ (setInsert n cs).2 ∈ cs := by
  unfold setInsert
  cases hf : setFind n.name cs with
  | none => exact Or.inl rfl
  | some x =>
    rw [setFind_eq _ _ ho] at hf
    exact Or.inr (List.mem_of_find?_eq_some hf)

theorem create_snd_mem {n : Node} {cs : List Node} (ho : Ordered cs) :
    (createIn n cs).2 = n ∨ (createIn n cs).2 ∈ cs := by
  rcases setInsert_snd_mem (n := n) (ordered_remove (name := n.name) ho) with h | h
  · exact Or.inl h
  · exact Or.inr (mem_remove h)

/-- A change that keeps the name of the node and its well-formedness does so for the whole tree. -/
theorem wf_resolveC {α} {f : Node → Except Fail (Node × α)}
    (hf : ∀ n n' a, Wf n → f n = .ok (n', a) → Wf n') (ctx : Node) (ps : List Bytes) (h : Wf ctx)
    {r : Node} {a : α} (hr : resolveC f ctx ps = .ok (some (r, a))) : Wf r := by
  induction ps generalizing ctx r with
  | nil =>
    simp only [resolveC] at hr
    cases hc : f ctx with
    | error e => rw [hc] at hr; simp [Except.map] at hr
    | ok q =>
      rw [hc] at hr
      simp only [Except.map, Except.ok.injEq, Option.some.injEq] at hr
      subst hr
      exact hf _ _ _ h hc
  | cons p ps ih =>
    cases ctx with
    | file n t d => simp [resolveC] at hr
    | dir n t cs =>
      simp only [resolveC] at hr
      cases hc : childIn p cs with
      | none => rw [hc] at hr; simp at hr
      | some c =>
        rw [hc] at hr
        dsimp only at hr
        cases hq : resolveC f c ps with
        | error e => rw [hq] at hr; simp at hr
        | ok o =>
          cases o with
          | none => rw [hq] at hr; simp at hr
          | some q =>
            obtain ⟨c', b⟩ := q
            rw [hq] at hr
            simp only [Except.ok.injEq, Option.some.injEq, Prod.mk.injEq] at hr
            obtain ⟨rfl, rfl⟩ := hr
            exact wf_replace (ih c (h.kids (childIn_mem h.ordered hc)) hq) h.ordered (fun _ => h.kids) _ _

theorem wf_mkdirC (now : Int) (ctx : Node) (ps : List Bytes) (h : Wf ctx) {r q : Node}
    (hr : mkdirC now ctx ps = .ok (r, q)) : Wf r := by
  induction ps generalizing ctx r with
  | nil => simp only [mkdirC, Except.ok.injEq, Prod.mk.injEq] at hr; rw [← hr.1]; exact h
  | cons p ps ih =>
    cases ctx with
    | file n t d => simp [mkdirC] at hr
    | dir n t cs =>
      simp only [mkdirC] at hr
      have hnew : Wf (.dir p now []) := Wf.dir _ _ _ List.Pairwise.nil (by simp)
      cases hc : childIn p cs with
      | none =>
        rw [hc] at hr
        dsimp only at hr
        have hwf := wf_create hnew h.ordered (fun _ => h.kids) n t
        have hsnd : Wf (createIn (.dir p now []) cs).2 := by
          rcases create_snd_mem (n := .dir p now []) h.ordered with e | e
          · rw [e]; exact hnew
          · exact h.kids e
        cases hq : mkdirC now (createIn (.dir p now []) cs).2 ps with
        | error e => rw [hq] at hr; simp at hr
        | ok o =>
          rw [hq] at hr
          simp only [Except.ok.injEq, Prod.mk.injEq] at hr
          obtain ⟨rfl, rfl⟩ := hr
          exact wf_replace (ih _ hsnd hq) hwf.ordered (fun _ => hwf.kids) _ _
      | some c =>
        rw [hc] at hr
        dsimp only at hr
        split at hr
        · simp at hr
        · cases hq : mkdirC now c ps with
          | error e => rw [hq] at hr; simp at hr
          | ok o =>
            rw [hq] at hr
            simp only [Except.ok.injEq, Prod.mk.injEq] at hr
            obtain ⟨rfl, rfl⟩ := hr
            exact wf_replace (ih c (h.kids (childIn_mem h.ordered hc)) hq) h.ordered (fun _ => h.kids) _ _

mutual
theorem wf_mountInto (o : Overwrite) (src : Node) (dest : List Node) (hs : Wf src) (ho : Ordered dest)
    (hk : ∀ c ∈ dest, Wf c) : Ordered (mountInto o src dest) ∧ ∀ c ∈ mountInto o src dest, Wf c := by
  unfold mountInto
  cases hc : childIn src.name dest with
  | none =>
    have := wf_create hs ho hk [] 0
    exact ⟨this.ordered, fun _ => this.kids⟩
  | some ex =>
    dsimp only
    split
    · split
      · have h1 := wf_remove (name := ex.name) ho hk [] 0
        have := wf_create hs h1.ordered (fun _ => h1.kids) [] 0
        exact ⟨this.ordered, fun _ => this.kids⟩
      · exact ⟨ho, hk⟩
    · have hex := hk ex (childIn_mem ho hc)
      cases src with
      | file n t d => exact ⟨ho, hk⟩
      | dir m u kids =>
        cases ex with
        | file n t d => exact ⟨ho, hk⟩
        | dir n t cs =>
          dsimp only
          have := wf_mountAll o kids cs hs.ordered (fun _ => hs.kids) hex.ordered (fun _ => hex.kids)
          have h2 := wf_replace (Wf.dir n t _ this.1 this.2) ho hk [] 0
          exact ⟨h2.ordered, fun _ => h2.kids⟩
theorem wf_mountAll (o : Overwrite) (kids : List Node) (dest : List Node) (hs : Ordered kids)
    (hkk : ∀ c ∈ kids, Wf c) (ho : Ordered dest) (hk : ∀ c ∈ dest, Wf c) :
    Ordered (mountAll o kids dest) ∧ ∀ c ∈ mountAll o kids dest, Wf c := by
  match kids with
  | [] => unfold mountAll; exact ⟨ho, hk⟩
  | x :: xs =>
    unfold mountAll
    have := wf_mountAll o xs dest hs.tail (fun c hc => hkk c (by simp [hc])) ho hk
    exact wf_mountInto o x _ (hkk x (by simp)) this.1 this.2
end

end Verif.Vfs
