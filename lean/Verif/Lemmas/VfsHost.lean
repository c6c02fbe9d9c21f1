import Verif.Spec.VfsHost
import Verif.Lemmas.VfsTree

/-!
# Lemmas: mounting directories of the host
-/

namespace Verif.Vfs

open Verif.Spec

/-- What is loaded for an entry. -/
inductive Loaded (clock : Int) : Host → Node → Prop
  | file (n t c) : c ≠ [] → Loaded clock (.file n t c) (.file n (t - clock) (Desc.make c 0 c.length false 0))
  | dir (n t es kids) : hostAll clock es [] = .ok kids → Loaded clock (.dir n t es) (.dir n (t - clock) kids)

/-- The entries that are loaded, in a directory. -/
def Entries (clock : Int) (hs : List Host) (old new : List Node) : Prop :=
  ∀ p, match hs.find? (fun h => fold h.name == key p) with
    | none => entry new p = entry old p
    | some h => if h.creates then ∃ x, entry new p = some x ∧ Loaded clock h x else entry new p = entry old p

structure Tidy (cs : List Node) : Prop where
  ordered : Ordered cs
  wf : ∀ c ∈ cs, Wf c
  clean : ∀ c ∈ cs, CleanTree c

theorem Tidy.nil : Tidy [] := ⟨List.Pairwise.nil, by simp, by simp⟩

theorem Tidy.create {cs : List Node} (h : Tidy cs) {x : Node} (hw : Wf x) (hc : CleanTree x) : Tidy (createIn x cs).1 :=
  ⟨ordered_create h.ordered, fun c hm => (mem_create hm).elim (fun e => e ▸ hw) (h.wf c),
    fun c hm => (mem_create hm).elim (fun e => e ▸ hc) (h.clean c)⟩

theorem Tidy.replace {cs : List Node} (h : Tidy cs) {x : Node} (hw : Wf x) (hc : CleanTree x) : Tidy (setReplace x cs) :=
  ⟨ordered_replace h.ordered, fun c hm => (mem_replace hm).elim (fun e => e ▸ hw) (h.wf c),
    fun c hm => (mem_replace hm).elim (fun e => e ▸ hc) (h.clean c)⟩

theorem hostOk_clean {h : Host} (hok : HostOk h) : Clean h.name := by
  cases h with
  | file n t c => exact hok
  | dir n t es => exact hok.1

mutual
theorem hostOne_spec (clock : Int) (h : Host) (hok : HostOk h) (cs : List Node) (ht : Tidy cs) :
    ∃ cs', hostOne clock h cs = .ok cs' ∧ Tidy cs' ∧
      ∀ p, if key h.name = key p ∧ h.creates = true then ∃ x, entry cs' p = some x ∧ Loaded clock h x
        else entry cs' p = entry cs p := by
  match h with
  | .file n t c =>
    have hn : Clean n := hok
    by_cases hc : c = []
    · refine ⟨cs, by simp [hostOne, hc], ht, ?_⟩
      intro p
      rw [if_neg (by simp [Host.creates, hc])]
    · refine ⟨_, by simp only [hostOne]; rw [if_neg (by simpa using hc)], ht.create (Wf.file _ _ _) (CleanTree.file _ _ _ hn), ?_⟩
      intro p
      rw [entry_create (n := .file n (t - clock) (Desc.make c 0 c.length false 0)) hn ht.ordered]
      by_cases hk : key n = key p
      · rw [if_pos ⟨hk, by simpa [Host.creates] using hc⟩]
        exact ⟨_, if_pos hk, .file n t c hc⟩
      · rw [if_neg (fun e => hk e.1)]
        exact if_neg hk
  | .dir n t es =>
    have hn : Clean n := hok.1
    obtain ⟨kids, hk, hkt, -⟩ := hostAll_spec clock es hok.2 [] .nil
    have hnew : Clean (Node.dir n (t - clock) []).name := hn
    have hcreate : createIn (.dir n (t - clock) []) cs = ((createIn (.dir n (t - clock) []) cs).1, .dir n (t - clock) []) := by
      exact Prod.ext rfl (create_snd hnew ht.ordered)
    have ht1 : Tidy (createIn (.dir n (t - clock) []) cs).1 :=
      ht.create (Wf.dir _ _ _ List.Pairwise.nil (by simp)) (CleanTree.dir _ _ _ hn (by simp))
    have he : entry (createIn (.dir n (t - clock) []) cs).1 n = some (.dir n (t - clock) []) := by
      rw [entry_create hnew ht.ordered]; exact if_pos rfl
    refine ⟨setReplace (.dir n (t - clock) kids) (createIn (.dir n (t - clock) []) cs).1, ?_,
      ht1.replace (Wf.dir _ _ _ hkt.ordered hkt.wf) (CleanTree.dir _ _ _ hn hkt.clean), ?_⟩
    · unfold hostOne
      rw [hcreate]
      simp only [hk]
    · intro p
      rw [entry_replace (c' := .dir n (t - clock) kids) ht1.ordered he rfl, entry_create hnew ht.ordered]
      by_cases hkp : key n = key p
      · rw [if_pos ⟨hkp, rfl⟩]
        exact ⟨_, if_pos hkp, .dir n t es kids hk⟩
      · rw [if_neg (fun e => hkp e.1), if_neg hkp]
        exact if_neg hkp
theorem hostAll_spec (clock : Int) (hs : List Host) (hok : HostsOk hs) (cs : List Node) (ht : Tidy cs) :
    ∃ cs', hostAll clock hs cs = .ok cs' ∧ Tidy cs' ∧ Entries clock hs cs cs' := by
  match hs with
  | [] => exact ⟨cs, rfl, ht, fun p => rfl⟩
  | h :: hs =>
    obtain ⟨cs1, e1, t1, h1⟩ := hostOne_spec clock h hok.1 cs ht
    obtain ⟨cs2, e2, t2, h2⟩ := hostAll_spec clock hs hok.2.2 cs1 t1
    refine ⟨cs2, by simp only [hostAll, e1, e2], t2, ?_⟩
    intro p
    have h1 := h1 p
    have h2 := h2 p
    rw [List.find?_cons]
    by_cases hk : fold h.name = key p
    · have hk' : key h.name = key p := by rw [key_clean (hostOk_clean hok.1)]; exact hk
      have hnone : hs.find? (fun h => fold h.name == key p) = none := by
        rw [List.find?_eq_none]
        intro x hx e
        exact hok.2.1 x hx ((beq_iff_eq.1 e).trans hk.symm)
      rw [hnone] at h2
      rw [beq_iff_eq.2 hk]
      simp only at h2 ⊢
      by_cases hc : h.creates = true
      · rw [if_pos hc]
        rw [if_pos ⟨hk', hc⟩] at h1
        rw [h2]; exact h1
      · rw [if_neg hc]
        rw [if_neg (fun e => hc e.2)] at h1
        rw [h2, h1]
    · have hk' : ¬ (key h.name = key p ∧ h.creates = true) := by
        rw [key_clean (hostOk_clean hok.1)]; exact fun e => hk e.1
      rw [if_neg hk'] at h1
      rw [beq_eq_false_iff_ne.2 hk]
      simp only
      cases hf : hs.find? (fun h => fold h.name == key p) with
      | none => rw [hf] at h2; simp only at h2 ⊢; rw [h2, h1]
      | some x =>
        rw [hf] at h2
        simp only at h2 ⊢
        by_cases hc : x.creates = true
        · rw [if_pos hc] at h2 ⊢; exact h2
        · rw [if_neg hc] at h2 ⊢; rw [h2, h1]
end

theorem hostsOk_mem {hs : List Host} (h : HostsOk hs) {x : Host} (hx : x ∈ hs) : HostOk x := by
  induction hs with
  | nil => cases hx
  | cons y ys ih =>
    rcases List.mem_cons.1 hx with rfl | hx
    · exact h.1
    · exact ih h.2.2 hx

theorem readFile_host (unz : Zip.Unz) (c : Bytes) :
    readFile unz (Desc.make c 0 c.length false 0) = .ok (c.length, c) := by
  unfold readFile Desc.make
  simp

/-- What a user sees below a loaded directory. -/
theorem hostAll_seen (unz : Zip.Unz) (clock : Int) (ps : List Bytes) (hne : ps ≠ []) (hs : List Host) (hok : HostsOk hs)
    (cs : List Node) (h : hostAll clock hs [] = .ok cs) (n t) :
    (lookup (.dir n t cs) ps).bind (seen unz) = hostAt clock hs ps := by
  induction ps generalizing hs cs n t with
  | nil => exact absurd rfl hne
  | cons p ps ih =>
    obtain ⟨cs', e, -, he⟩ := hostAll_spec clock hs hok [] .nil
    rw [h] at e
    injection e with e
    subst e
    have he := he p
    rw [lookup_cons]
    unfold hostAt
    have hnil : entry [] p = none := rfl
    cases hf : hs.find? (fun h => fold h.name == key p) with
    | none => rw [hf] at he; simp only at he ⊢; rw [he, hnil]; rfl
    | some x =>
      rw [hf] at he
      simp only at he
      have hx := hostsOk_mem hok (List.mem_of_find?_eq_some hf)
      cases x with
      | file m u c =>
        by_cases hc : c = []
        · rw [if_neg (by simp [Host.creates, hc]), hnil] at he
          rw [he]
          simp [hc]
        · rw [if_pos (by simpa [Host.creates] using hc)] at he
          obtain ⟨y, hy, hl⟩ := he
          rw [hy]
          cases hl
          cases ps with
          | nil =>
            simp only [lookup, Option.bind_some, seen, readFile_host unz c]
            simp [hc]
          | cons q qs => simp [lookup]
      | dir m u es =>
        rw [if_pos (show (Host.dir m u es).creates = true from rfl)] at he
        obtain ⟨y, hy, hl⟩ := he
        rw [hy]
        cases hl with
        | dir _ _ _ kids hk =>
          cases ps with
          | nil => simp [lookup, seen]
          | cons q qs =>
            simp only [reduceCtorEq, if_false]
            exact ih (by simp) es hx.2 kids hk m (u - clock)

/-! ## Mounting the nodes one after the other -/

theorem lookup_strip {x y : Node} {ps q q2 : List Bytes} (h : lookup x ps = some y) (hs : strip ps q = some q2) :
    lookup x q = lookup y q2 := by
  induction ps generalizing x q with
  | nil => simp only [lookup, Option.some.injEq] at h; simp only [strip, Option.some.injEq] at hs; rw [h, hs]
  | cons p ps ih =>
    cases q with
    | nil => cases hs
    | cons b q =>
      simp only [strip] at hs
      split at hs
      · rename_i hk
        cases x with
        | file => simp [lookup] at h
        | dir n t cs =>
          rw [lookup_cons] at h ⊢
          rw [← entry_congr hk]
          cases hc : entry cs p with
          | none => rw [hc] at h; cases h
          | some c => rw [hc] at h; exact ih h hs
      · cases hs

theorem resolveC_lookup {α} {f : Node → Except Fail (Node × α)} (hname : ∀ n n' a, f n = .ok (n', a) → n'.name = n.name)
    {ctx : Node} {ps : List Bytes} (h : Wf ctx) {r : Node} {a : α} (hr : resolveC f ctx ps = .ok (some (r, a)))
    {x x' : Node} (hl : lookup ctx ps = some x) (hf : f x = .ok (x', a)) : lookup r ps = some x' := by
  induction ps generalizing ctx r with
  | nil =>
    simp only [lookup, Option.some.injEq] at hl
    subst hl
    simp only [resolveC, hf, Except.map, Except.ok.injEq, Option.some.injEq, Prod.mk.injEq] at hr
    rw [← hr.1]; rfl
  | cons p ps ih =>
    cases ctx with
    | file n t d => simp [resolveC] at hr
    | dir n t cs =>
      rw [lookup_cons] at hl
      simp only [resolveC, childIn_eq _ _ h.ordered] at hr
      cases hc : entry cs p with
      | none => rw [hc] at hl; cases hl
      | some c =>
        rw [hc] at hl hr
        dsimp only at hl hr
        cases hq : resolveC f c ps with
        | error e => rw [hq] at hr; cases hr
        | ok o =>
          cases o with
          | none => rw [hq] at hr; simp at hr
          | some q =>
            obtain ⟨c', b⟩ := q
            rw [hq] at hr
            simp only [Except.ok.injEq, Option.some.injEq, Prod.mk.injEq] at hr
            obtain ⟨rfl, rfl⟩ := hr
            have hw := h.kids (entry_mem hc)
            have := ih hw hq hl
            rw [lookup_cons, entry_replace h.ordered hc (resolveC_some hname hw hq).1, if_pos rfl]
            exact this

/-- One node. -/
theorem mount_step (o : Overwrite) (root node : Node) (h : Wf root) (hn : Wf node) (parent : Bytes) {n t cs}
    (hl : lookup root (comps parent) = some (.dir n t cs)) :
    ∃ root', mount node parent o root = .ok root' ∧ Wf root' ∧
      lookup root' (comps parent) = some (.dir n t (mountInto o node cs)) ∧
      ∀ q, strip (comps parent) q = none → (lookup root' q).map info = (lookup root q).map info := by
  unfold mount
  rw [resolveWith_eq _ _ _ _ (by omega)]
  generalize hf : (fun p : Node => match p with
      | .file .. => (Except.error (.throw .vfsFileExists) : Except Fail (Node × Unit))
      | .dir n t cs => .ok (.dir n t (mountInto o node cs), ())) = f
  have hff : ∀ n t d, f (.file n t d) = .error (.throw .vfsFileExists) := by intro n t d; rw [← hf]
  have hfd : ∀ n t cs, f (.dir n t cs) = .ok (.dir n t (mountInto o node cs), ()) := by intro n t d; rw [← hf]
  have hname : ∀ n n' a, f n = .ok (n', a) → n'.name = n.name := by
    intro n n' a he
    cases n with
    | file => rw [hff] at he; cases he
    | dir => rw [hfd] at he; injection he with he; injection he with he; rw [← he]; rfl
  obtain ⟨root', hr⟩ := resolveC_total (f := f) h hl (hfd n t cs)
  have hwf : Wf root' := by
    refine wf_resolveC (f := f) ?_ root _ h hr
    intro m m' a hm he
    cases m with
    | file => rw [hff] at he; cases he
    | dir n t cs =>
      rw [hfd] at he
      injection he with he
      injection he with he
      rw [← he]
      have := wf_mountInto o node cs hn hm.ordered (fun _ => hm.kids)
      exact Wf.dir _ _ _ this.1 this.2
  refine ⟨root', by rw [hr], hwf, resolveC_lookup hname h hr hl (hfd n t cs), ?_⟩
  intro q hq
  obtain ⟨_, x, x', h1, h2, h3⟩ := resolveC_some hname h hr
  rw [h3 q, hq]

/-- The nodes, the first one first. -/
def mountFold (o : Overwrite) (kids dest : List Node) : List Node := kids.foldl (fun d x => mountInto o x d) dest

theorem wf_mountFold (o : Overwrite) (kids dest : List Node) (hkw : ∀ c ∈ kids, Wf c) (ho : Ordered dest)
    (hw : ∀ c ∈ dest, Wf c) : Ordered (mountFold o kids dest) ∧ ∀ c ∈ mountFold o kids dest, Wf c := by
  induction kids generalizing dest with
  | nil => exact ⟨ho, hw⟩
  | cons x xs ih =>
    have := wf_mountInto o x dest (hkw x (by simp)) ho hw
    exact ih _ (fun c hc => hkw c (by simp [hc])) this.1 this.2

theorem entry_mountFold (o : Overwrite) (kids dest : List Node) (hk : Ordered kids) (hkw : ∀ c ∈ kids, Wf c)
    (hc : ∀ c ∈ kids, Clean c.name) (ho : Ordered dest) (hw : ∀ c ∈ dest, Wf c) (p : Bytes) :
    entry (mountFold o kids dest) p = match entry kids p with
      | none => entry dest p
      | some y => some (mergeNode o (entry dest p) y) := by
  induction kids generalizing dest with
  | nil => rfl
  | cons x xs ih =>
    have hcx := hc x (by simp)
    have hwf := wf_mountInto o x dest (hkw x (by simp)) ho hw
    have := ih (mountInto o x dest) hk.tail (fun c hx => hkw c (by simp [hx])) (fun c hx => hc c (by simp [hx])) hwf.1 hwf.2
    rw [show mountFold o (x :: xs) dest = mountFold o xs (mountInto o x dest) from rfl, this,
      entry_mountInto o x dest ho hcx, entry_cons, ← key_clean hcx]
    by_cases h : key x.name = key p
    · rw [if_pos h, if_pos h]
      have : entry xs p = none := by
        unfold entry
        rw [List.find?_eq_none]
        intro y hy he
        have hlt := (List.pairwise_cons.1 hk).1 y hy
        have e : fold y.name = key p := by simpa using he
        rw [key_clean hcx] at h
        have := ((incomparable_iff x.name y.name).2 (h.trans e.symm)).1
        rw [hlt] at this; cases this
      rw [this]
    · rw [if_neg h, if_neg h]

theorem mountEach_spec (o : Overwrite) (kids : List Node) (root : Node) (h : Wf root) (hk : ∀ c ∈ kids, Wf c)
    (parent : Bytes) {n t cs} (hl : lookup root (comps parent) = some (.dir n t cs)) :
    ∃ root', mountEach parent o kids root = (root', .ok ()) ∧ Wf root' ∧
      lookup root' (comps parent) = some (.dir n t (mountFold o kids cs)) ∧
      ∀ q, strip (comps parent) q = none → (lookup root' q).map info = (lookup root q).map info := by
  induction kids generalizing root cs with
  | nil => exact ⟨root, rfl, h, hl, fun _ _ => rfl⟩
  | cons x xs ih =>
    obtain ⟨r1, e1, w1, l1, q1⟩ := mount_step o root x h (hk x (by simp)) parent hl
    obtain ⟨r2, e2, w2, l2, q2⟩ := ih r1 w1 (fun c hc => hk c (by simp [hc])) l1
    refine ⟨r2, by simp only [mountEach, e1, e2], w2, l2, ?_⟩
    intro q hq
    rw [q2 q hq, q1 q hq]

theorem mountFold_merged (o : Overwrite) (p : Bytes) (ps : List Bytes) (kids dest : List Node) (n t) (hk : Tidy kids)
    (ho : Ordered dest) (hw : ∀ c ∈ dest, Wf c) :
    (lookup (.dir n t (mountFold o kids dest)) (p :: ps)).map info = merged o dest kids (p :: ps) := by
  have hcl : ∀ c ∈ kids, Clean c.name := fun c hx => Clean_of_tree (hk.clean c hx)
  rw [← mountAll_merged o (p :: ps) (by simp) kids dest n t hk.ordered hk.wf hk.clean ho hw, lookup_cons, lookup_cons,
    entry_mountFold o kids dest hk.ordered hk.wf hcl ho hw, entry_mountAll o kids dest hk.ordered hk.wf hcl ho hw]
  rfl

/-! ## Any directory -/

mutual
theorem hostOne_wf (clock : Int) (h : Host) (cs : List Node) (ho : Ordered cs) (hw : ∀ c ∈ cs, Wf c) {cs' : List Node}
    (hr : hostOne clock h cs = .ok cs') : Ordered cs' ∧ ∀ c ∈ cs', Wf c := by
  match h with
  | .file n t c =>
    simp only [hostOne] at hr
    split at hr
    · injection hr with hr; subst hr; exact ⟨ho, hw⟩
    · injection hr with hr
      subst hr
      exact ⟨ordered_create ho, fun c hm => (mem_create hm).elim (fun e => e ▸ Wf.file _ _ _) (hw c)⟩
  | .dir n t es =>
    have h1 : Ordered (createIn (.dir n (t - clock) []) cs).1 := ordered_create ho
    have h2 : ∀ c ∈ (createIn (.dir n (t - clock) []) cs).1, Wf c := fun c hm =>
      (mem_create hm).elim (fun e => e ▸ Wf.dir _ _ _ List.Pairwise.nil (by simp)) (hw c)
    have h3 : Wf (createIn (.dir n (t - clock) []) cs).2 := by
      rcases create_snd_mem (n := .dir n (t - clock) []) ho with e | e
      · rw [e]; exact Wf.dir _ _ _ List.Pairwise.nil (by simp)
      · exact hw _ e
    unfold hostOne at hr
    generalize createIn (.dir n (t - clock) []) cs = q at h1 h2 h3 hr
    obtain ⟨cs1, x⟩ := q
    cases x with
    | file =>
      simp only at hr
      split at hr
      · cases hr
      · injection hr with hr; subst hr; exact ⟨h1, h2⟩
    | dir m u kids =>
      simp only at hr
      cases hk : hostAll clock es kids with
      | error e => rw [hk] at hr; cases hr
      | ok kids' =>
        rw [hk] at hr
        injection hr with hr
        subst hr
        have := hostAll_wf clock es kids h3.ordered (fun _ => h3.kids) hk
        exact ⟨ordered_replace h1, fun c hm => (mem_replace hm).elim (fun e => e ▸ Wf.dir _ _ _ this.1 this.2) (h2 c)⟩
theorem hostAll_wf (clock : Int) (hs : List Host) (cs : List Node) (ho : Ordered cs) (hw : ∀ c ∈ cs, Wf c) {cs' : List Node}
    (hr : hostAll clock hs cs = .ok cs') : Ordered cs' ∧ ∀ c ∈ cs', Wf c := by
  match hs with
  | [] => simp only [hostAll, Except.ok.injEq] at hr; subst hr; exact ⟨ho, hw⟩
  | h :: hs =>
    simp only [hostAll] at hr
    cases h1 : hostOne clock h cs with
    | error e => rw [h1] at hr; cases hr
    | ok cs1 =>
      rw [h1] at hr
      have := hostOne_wf clock h cs ho hw h1
      exact hostAll_wf clock hs cs1 this.1 this.2 hr
end

theorem mount_wf (o : Overwrite) (node root : Node) (parent : Bytes) (hn : Wf node) (h : Wf root) {r : Node}
    (hm : mount node parent o root = .ok r) : Wf r := by
  unfold mount at hm
  rw [resolveWith_eq _ _ _ _ (by omega)] at hm
  generalize hf : (fun p : Node => match p with
      | .file .. => (Except.error (.throw .vfsFileExists) : Except Fail (Node × Unit))
      | .dir n t cs => .ok (.dir n t (mountInto o node cs), ())) = f at hm
  cases hr : resolveC f root (comps parent) with
  | error e => rw [hr] at hm; cases hm
  | ok q =>
    rw [hr] at hm
    cases q with
    | none => cases hm
    | some q =>
      injection hm with hm
      subst hm
      refine wf_resolveC (f := f) ?_ root _ h hr
      intro n n' a hw he
      subst hf
      cases n with
      | file => cases he
      | dir n t cs =>
        simp only [Except.ok.injEq, Prod.mk.injEq] at he
        have := wf_mountInto o node cs hn hw.ordered (fun _ => hw.kids)
        rw [← he.1]; exact .dir _ _ _ this.1 this.2

theorem mountHost_wf (clock : Int) (hs : List Host) (parent : Bytes) (o : Overwrite) (root : Node) (h : Wf root) :
    Wf (mountHost clock hs parent o root).1 := by
  unfold mountHost
  cases hk : hostAll clock hs [] with
  | error e => exact h
  | ok cs =>
    have hw := (hostAll_wf clock hs [] List.Pairwise.nil (by simp) hk).2
    clear hk
    simp only
    induction cs generalizing root with
    | nil => exact h
    | cons x xs ih =>
      unfold mountEach
      cases hm : mount x parent o root with
      | error e => exact h
      | ok r => exact ih r (mount_wf o x root parent (hw x (by simp)) h hm) (fun c hc => hw c (by simp [hc]))

end Verif.Vfs
