import Verif.Spec.VfsMemory
import Verif.Lemmas.VfsDiskInv
import Verif.Lemmas.VfsHost
import Mathlib.Tactic.Tauto

/-!
# Lemmas about the memory behind a file system
-/

namespace Verif.Vfs

open Spec

/-- The tree is well formed and its files satisfy `Q`. -/
def Sure (Q : Desc → Prop) (x : Node) : Prop := Wf x ∧ FilesIn Q x

theorem Sure.good {Q : Desc → Prop} {n t cs} (h : Sure Q (.dir n t cs)) : Good Q cs := Good.of h.1 h.2

theorem Good.sure {Q : Desc → Prop} {cs : List Node} (h : Good Q cs) (n : Bytes) (t : Int) : Sure Q (.dir n t cs) := h.dir

theorem Good.kid {Q : Desc → Prop} {cs : List Node} (h : Good Q cs) {c : Node} (hc : c ∈ cs) : Sure Q c := ⟨h.wf c hc, h.files c hc⟩

theorem Good.made {Q : Desc → Prop} {cs : List Node} (h : Good Q cs) {n : Node} (hn : Sure Q n) : Sure Q (createIn n cs).2 := by
  rcases create_snd_mem (n := n) h.ordered with e | e
  · rw [e]; exact hn
  · exact h.kid e

theorem sure_leaf {Q : Desc → Prop} (n : Bytes) (t : Int) : Sure Q (.dir n t []) := Good.nil.dir

theorem sure_mono {Q R : Desc → Prop} {x : Node} (h : Sure Q x) (hm : ∀ d, Q d → R d) : Sure R x :=
  ⟨h.1, fun n t d hi => hm d (h.2 n t d hi)⟩

theorem resolveC_sure {α} {Q : Desc → Prop} {f : Node → Except Fail (Node × α)}
    (hf : ∀ n n' a, Sure Q n → f n = .ok (n', a) → Sure Q n') (ctx : Node) (ps : List Bytes) (h : Sure Q ctx)
    {r : Node} {a : α} (hr : resolveC f ctx ps = .ok (some (r, a))) : Sure Q r := by
  induction ps generalizing ctx r with
  | nil =>
    simp only [resolveC] at hr
    cases hc : f ctx with
    | error e => rw [hc] at hr; simp [Except.map] at hr
    | ok q =>
      rw [hc] at hr
      simp only [Except.map, Except.ok.injEq, Option.some.injEq] at hr
      subst hr
      exact hf _ _ _ h hc
  | cons p ps ih =>
    cases ctx with
    | file n t d => simp [resolveC] at hr
    | dir n t cs =>
      simp only [resolveC] at hr
      cases hc : childIn p cs with
      | none => rw [hc] at hr; simp at hr
      | some c =>
        rw [hc] at hr
        dsimp only at hr
        cases hq : resolveC f c ps with
        | error e => rw [hq] at hr; simp at hr
        | ok o =>
          cases o with
          | none => rw [hq] at hr; simp at hr
          | some q =>
            obtain ⟨c', b⟩ := q
            rw [hq] at hr
            simp only [Except.ok.injEq, Option.some.injEq, Prod.mk.injEq] at hr
            obtain ⟨rfl, rfl⟩ := hr
            have := ih c (h.good.kid (childIn_mem h.1.ordered hc)) hq
            exact (h.good.replace this.1 this.2).sure n t

theorem mkdirC_sure {Q : Desc → Prop} (now : Int) (ctx : Node) (ps : List Bytes) (h : Sure Q ctx) {r q : Node}
    (hr : mkdirC now ctx ps = .ok (r, q)) : Sure Q r := by
  induction ps generalizing ctx r with
  | nil => simp only [mkdirC, Except.ok.injEq, Prod.mk.injEq] at hr; rw [← hr.1]; exact h
  | cons p ps ih =>
    cases ctx with
    | file n t d => simp [mkdirC] at hr
    | dir n t cs =>
      simp only [mkdirC] at hr
      have hnew : Sure Q (.dir p now []) := sure_leaf _ _
      cases hc : childIn p cs with
      | none =>
        rw [hc] at hr
        dsimp only at hr
        cases hq : mkdirC now (createIn (.dir p now []) cs).2 ps with
        | error e => rw [hq] at hr; simp at hr
        | ok o =>
          rw [hq] at hr
          simp only [Except.ok.injEq, Prod.mk.injEq] at hr
          obtain ⟨rfl, rfl⟩ := hr
          have := ih _ (h.good.made hnew) hq
          exact ((h.good.create hnew.1 hnew.2).replace this.1 this.2).sure n t
      | some c =>
        rw [hc] at hr
        dsimp only at hr
        split at hr
        · simp at hr
        · cases hq : mkdirC now c ps with
          | error e => rw [hq] at hr; simp at hr
          | ok o =>
            rw [hq] at hr
            simp only [Except.ok.injEq, Prod.mk.injEq] at hr
            obtain ⟨rfl, rfl⟩ := hr
            have := ih c (h.good.kid (childIn_mem h.1.ordered hc)) hq
            exact (h.good.replace this.1 this.2).sure n t

mutual
theorem mountInto_good {Q : Desc → Prop} (o : Overwrite) (src : Node) (dest : List Node) (hs : Sure Q src) (hd : Good Q dest) :
    Good Q (mountInto o src dest) := by
  unfold mountInto
  cases hc : childIn src.name dest with
  | none => exact hd.create hs.1 hs.2
  | some ex =>
    dsimp only
    split
    · split
      · exact hd.remove.create hs.1 hs.2
      · exact hd
    · have hex := hd.kid (childIn_mem hd.ordered hc)
      cases src with
      | file n t d => exact hd
      | dir m u kids =>
        cases ex with
        | file n t d => exact hd
        | dir n t cs =>
          dsimp only
          have := (mountAll_good o kids cs (fun c hc => hs.good.kid hc) hex.good).sure n t
          exact hd.replace this.1 this.2
theorem mountAll_good {Q : Desc → Prop} (o : Overwrite) (kids : List Node) (dest : List Node) (hk : ∀ c ∈ kids, Sure Q c) (hd : Good Q dest) :
    Good Q (mountAll o kids dest) := by
  match kids with
  | [] => unfold mountAll; exact hd
  | x :: xs =>
    unfold mountAll
    exact mountInto_good o x _ (hk x (by simp)) (mountAll_good o xs dest (fun c hc => hk c (by simp [hc])) hd)
end

theorem mount_sure {Q : Desc → Prop} (o : Overwrite) (node root : Node) (parent : Bytes) (hn : Sure Q node) (h : Sure Q root) {r : Node}
    (hm : mount node parent o root = .ok r) : Sure Q r := by
  unfold mount at hm
  rw [resolveWith_eq _ _ _ _ (by omega)] at hm
  generalize hf : (fun p : Node => match p with
      | .file .. => (Except.error (.throw .vfsFileExists) : Except Fail (Node × Unit))
      | .dir n t cs => .ok (.dir n t (mountInto o node cs), ())) = f at hm
  cases hr : resolveC f root (comps parent) with
  | error e => rw [hr] at hm; cases hm
  | ok q =>
    rw [hr] at hm
    cases q with
    | none => cases hm
    | some q =>
      injection hm with hm
      subst hm
      refine resolveC_sure (f := f) ?_ root _ h hr
      intro n n' a hw he
      subst hf
      cases n with
      | file => cases he
      | dir n t cs =>
        simp only [Except.ok.injEq, Prod.mk.injEq] at he
        rw [← he.1]
        exact (mountInto_good o node cs hn hw.good).sure n t

mutual
theorem hostOne_good {Q : Desc → Prop} (clock : Int) (h : Host) (hq : ∀ b ∈ h.blocks, ∀ d, d.mem = b → Q d) (cs : List Node) (hg : Good Q cs)
    {cs' : List Node} (hr : hostOne clock h cs = .ok cs') : Good Q cs' := by
  match h with
  | .file n t c =>
    simp only [hostOne] at hr
    split at hr
    · injection hr with hr; subst hr; exact hg
    · rename_i hc
      injection hr with hr
      subst hr
      refine hg.create (Wf.file _ _ _) (filesIn_file (hq c ?_ _ rfl))
      rw [Host.blocks, if_neg hc]
      exact List.mem_singleton.2 rfl
  | .dir n t es =>
    have h1 := hg.create (n := .dir n (t - clock) []) (sure_leaf (Q := Q) _ _).1 (sure_leaf _ _).2
    have h3 := hg.made (n := .dir n (t - clock) []) (sure_leaf _ _)
    unfold hostOne at hr
    generalize createIn (.dir n (t - clock) []) cs = q at h1 h3 hr
    obtain ⟨cs1, x⟩ := q
    cases x with
    | file =>
      simp only at hr
      split at hr
      · cases hr
      · injection hr with hr; subst hr; exact h1
    | dir m u kids =>
      simp only at hr
      cases hk : hostAll clock es kids with
      | error e => rw [hk] at hr; cases hr
      | ok kids' =>
        rw [hk] at hr
        injection hr with hr
        subst hr
        have := (hostAll_good clock es (by rw [Host.blocks] at hq; exact hq) kids h3.good hk).sure m u
        exact h1.replace this.1 this.2
theorem hostAll_good {Q : Desc → Prop} (clock : Int) (hs : List Host) (hq : ∀ b ∈ Host.blocksAll hs, ∀ d, d.mem = b → Q d) (cs : List Node)
    (hg : Good Q cs) {cs' : List Node} (hr : hostAll clock hs cs = .ok cs') : Good Q cs' := by
  match hs with
  | [] => simp only [hostAll, Except.ok.injEq] at hr; subst hr; exact hg
  | h :: hs =>
    simp only [hostAll] at hr
    rw [Host.blocksAll] at hq
    cases h1 : hostOne clock h cs with
    | error e => rw [h1] at hr; cases hr
    | ok cs1 =>
      rw [h1] at hr
      exact hostAll_good clock hs (fun b hb => hq b (List.mem_append_right _ hb)) cs1
        (hostOne_good clock h (fun b hb => hq b (List.mem_append_left _ hb)) cs hg h1) hr
end

theorem mountEach_sure {Q : Desc → Prop} (parent : Bytes) (o : Overwrite) (cs : List Node) (hc : ∀ c ∈ cs, Sure Q c) (root : Node)
    (h : Sure Q root) : Sure Q (mountEach parent o cs root).1 := by
  induction cs generalizing root with
  | nil => exact h
  | cons x xs ih =>
    unfold mountEach
    cases hm : mount x parent o root with
    | error e => exact h
    | ok r => exact ih (fun c hx => hc c (by simp [hx])) r (mount_sure o x root parent (hc x (by simp)) h hm)

theorem mountDisk_sure {Q : Desc → Prop} (unixTime : BitVec 32 → Int) (fuel : Nat) (image : Bytes) (o : Overwrite) (root : Node)
    (hq : ∀ d, d.mem = image → Q d) (h : Sure Q root) : Sure Q (mountDisk unixTime fuel image o root).1 :=
  mountDisk_good (fun _ d hk hd => hq d (hd.1.trans hk)) unixTime fuel o root h.1 h.2

theorem built_sure {Q : Desc → Prop} {x : Node} (hb : Built x) (h : ∀ n t d, Inside x (.file n t d) → Q d) : Sure Q x := by
  refine ⟨?_, h⟩
  clear h
  induction hb with
  | file n t d => exact .file _ _ _
  | dir n t => exact .dir _ _ _ List.Pairwise.nil (by simp)
  | create h1 h2 ih1 ih2 => exact wf_create ih2 ih1.ordered (fun _ => ih1.kids) _ _
  | remove name h ih => exact wf_remove ih.ordered (fun _ => ih.kids) _ _

theorem create_sure {Q : Desc → Prop} {node n n' a : Node} (hx : Sure Q node) (h : Sure Q n) (hf : Node.create node n = .ok (n', a)) : Sure Q n' := by
  cases n with
  | file => simp [Node.create, Node.children, bind, Except.bind] at hf
  | dir n t cs =>
    simp only [Node.create, Node.children, bind, Except.bind, pure, Except.pure, Except.ok.injEq, Prod.mk.injEq, Node.withChildren] at hf
    rw [← hf.1]
    exact (h.good.create hx.1 hx.2).sure n t

theorem remove_sure {Q : Desc → Prop} {name : Bytes} {n n' : Node} {a : Bool} (h : Sure Q n) (hf : Node.remove name n = .ok (n', a)) : Sure Q n' := by
  cases n with
  | file => simp [Node.remove, Node.children, bind, Except.bind] at hf
  | dir n t cs =>
    simp only [Node.remove, Node.children, bind, Except.bind, pure, Except.pure, Except.ok.injEq, Prod.mk.injEq, Node.withChildren] at hf
    rw [← hf.1]
    exact h.good.remove.sure n t

/-- Every call keeps the files in memory that is kept, lent, or of an image whose mount failed. -/
theorem op_sure (unixTime : BitVec 32 → Int) (lent failed : Bytes → Prop) (fs : Fs) (op : FsOp) (hl : op.Lends lent)
    (hh : ∀ fuel image o e, op = .mountRead fuel image o → (op.run unixTime fs).2 = .error e → failed image)
    (h : Sure (fun d => d.mem ∈ fs.owned ∨ lent d.mem ∨ failed d.mem) fs.root) :
    Sure (fun d => d.mem ∈ (op.run unixTime fs).1.owned ∨ lent d.mem ∨ failed d.mem) (op.run unixTime fs).1.root := by
  cases op with
  | mkdir now path =>
    simp only [FsOp.run, Fs.onRoot, Vfs.mkdir]
    rw [mkdirLoop_eq _ _ _ _ (by omega)]
    cases hr : mkdirC now fs.root (comps path) with
    | error e => exact h
    | ok q => exact mkdirC_sure now fs.root _ h hr
  | remove path =>
    simp only [FsOp.run, Fs.onRoot, Vfs.remove]
    rw [resolveWith_eq _ _ _ _ (by omega)]
    cases hr : resolveC (Node.remove (nameOf path)) fs.root (comps (parentOf path)) with
    | error e => exact h
    | ok q =>
      cases q with
      | none => exact h
      | some q => exact resolveC_sure (fun n n' a hw hf => remove_sure hw hf) fs.root _ h hr
  | mount node parent o =>
    simp only [FsOp.run, Fs.onRoot]
    cases hr : Vfs.mount node parent o fs.root with
    | error e => exact h
    | ok r => exact mount_sure o node fs.root parent (built_sure hl.1 fun n t d hi => .inr (.inl (hl.2 n t d hi))) h hr
  | create path node =>
    simp only [FsOp.run, Fs.onRoot]
    rw [resolveWith_eq _ _ _ _ (by omega)]
    cases hr : resolveC (Node.create node) fs.root (comps path) with
    | error e => exact h
    | ok q =>
      cases q with
      | none => exact h
      | some q =>
        exact resolveC_sure (fun n n' a hw hf => create_sure (built_sure hl.1 fun n t d hi => .inr (.inl (hl.2 n t d hi))) hw hf) fs.root _ h hr
  | removeAt path name =>
    simp only [FsOp.run, Fs.onRoot]
    rw [resolveWith_eq _ _ _ _ (by omega)]
    cases hr : resolveC (Node.remove name) fs.root (comps path) with
    | error e => exact h
    | ok q =>
      cases q with
      | none => exact h
      | some q => exact resolveC_sure (fun n n' a hw hf => remove_sure hw hf) fs.root _ h hr
  | mountMemory fuel image o =>
    exact mountDisk_sure unixTime fuel image o fs.root (fun d hd => .inr (.inl (hd ▸ hl))) h
  | mountRead fuel image o =>
    have hh' := hh fuel image o
    simp only [FsOp.run, Fs.mountRead, true_implies] at hh' ⊢
    have hs := mountDisk_sure (Q := fun d => d.mem ∈ fs.owned ∨ lent d.mem ∨ failed d.mem ∨ d.mem = image) unixTime fuel image o fs.root
      (fun d hd => .inr (.inr (.inr hd))) (sure_mono h fun d hd => by tauto)
    generalize mountDisk unixTime fuel image o fs.root = q at hs hh' ⊢
    obtain ⟨root, _ | _⟩ := q
    · rename_i e
      have := hh' e rfl
      refine sure_mono hs ?_
      rintro d (h | h | h | h)
      · exact .inl h
      · exact .inr (.inl h)
      · exact .inr (.inr h)
      · exact .inr (.inr (h ▸ this))
    · refine sure_mono hs ?_
      rintro d (h | h | h | h)
      · exact .inl (List.mem_append_left _ h)
      · exact .inr (.inl h)
      · exact .inr (.inr h)
      · exact .inl (List.mem_append_right _ (List.mem_singleton.2 h))
  | mountPath fuel image o =>
    simp only [FsOp.run, Fs.mountPath]
    cases image with
    | none => exact h
    | some b =>
      refine mountDisk_sure unixTime fuel b o fs.root (fun d hd => .inl (List.mem_append_right _ (List.mem_singleton.2 hd))) (sure_mono h ?_)
      rintro d (h | h | h)
      · exact .inl (List.mem_append_left _ h)
      · exact .inr (.inl h)
      · exact .inr (.inr h)
  | mountHost clock entries parent o =>
    simp only [FsOp.run, Fs.mountHost]
    cases hr : hostAll clock entries [] with
    | error e => exact h
    | ok cs =>
      have hg := hostAll_good (Q := fun d => d.mem ∈ fs.owned ++ Host.blocksAll entries ∨ lent d.mem ∨ failed d.mem) clock entries
        (fun b hb d hd => .inl (List.mem_append_right _ (hd ▸ hb))) [] Good.nil hr
      refine mountEach_sure parent o cs (fun c hc => hg.kid hc) fs.root (sure_mono h ?_)
      rintro d (h | h | h)
      · exact .inl (List.mem_append_left _ h)
      · exact .inr (.inl h)
      · exact .inr (.inr h)

/-- No call gives memory back. -/
theorem op_owned (unixTime : BitVec 32 → Int) (fs : Fs) (op : FsOp) : ∀ b ∈ fs.owned, b ∈ (op.run unixTime fs).1.owned := by
  intro b hb
  cases op with
  | mountRead fuel image o =>
    simp only [FsOp.run, Fs.mountRead]
    generalize mountDisk unixTime fuel image o fs.root = q
    obtain ⟨root, _ | _⟩ := q
    · exact hb
    · exact List.mem_append_left _ hb
  | mountPath fuel image o =>
    simp only [FsOp.run, Fs.mountPath]
    cases image with
    | none => exact hb
    | some c => exact List.mem_append_left _ hb
  | mountHost clock entries parent o =>
    simp only [FsOp.run, Fs.mountHost]
    cases hostAll clock entries [] with
    | error e => exact hb
    | ok cs => exact List.mem_append_left _ hb
  | _ => exact hb

end Verif.Vfs
