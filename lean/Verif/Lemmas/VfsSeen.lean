import Verif.Lemmas.VfsDisk
import Verif.Lemmas.VfsTree
import Verif.Spec.VfsSeen

/-!
# Lemmas about what can be seen of a Vfs
-/

namespace Verif.Vfs

open Verif.Spec
open Zip (Unz)

/-! ## Saving depends on what is seen only -/

theorem writeEntries_view (unz : Unz) (zip : Bytes → Bytes) (compressed : Bool) : ∀ (cs ds : List Node) (ts : List FTree),
    viewAll unz cs = some ts → viewAll unz ds = some ts → ∀ s,
    writeEntries unz zip compressed cs s = writeEntries unz zip compressed ds s := by
  intro cs
  induction cs with
  | nil =>
    intro ds ts h1 h2 s
    have := viewAll_length h1; have := viewAll_length h2
    cases ds with
    | nil => rfl
    | cons d ds => simp only [List.length_cons, List.length_nil] at *; omega
  | cons c cs ih =>
    intro ds ts h1 h2 s
    obtain ⟨t, ts', rfl, hc, hcs⟩ := viewAll_cons h1
    cases ds with
    | nil => simp [viewAll] at h2
    | cons d ds =>
      obtain ⟨t2, ts2, he, hd, hds⟩ := viewAll_cons h2
      injection he with he1 he2
      subst he1; subst he2
      have hemp : cs.isEmpty = ds.isEmpty := by
        have h3 := viewAll_length hcs; have h4 := viewAll_length hds
        cases cs <;> cases ds <;> simp only [List.length_cons, List.length_nil, List.isEmpty_nil, List.isEmpty_cons] at * <;> omega
      cases c with
      | file n tm x =>
        obtain ⟨b, rfl, hb⟩ := view_file hc
        cases d with
        | dir n2 tm2 ks => obtain ⟨_, hx, _⟩ := view_dir hd; cases hx
        | file n2 tm2 y =>
          obtain ⟨b2, hx, hb2⟩ := view_file hd
          injection hx with hn hbb
          subst hn; subst hbb
          rw [writeEntries, writeEntries, hb, hb2, hemp]
          dsimp only
          rw [ih ds _ hcs hds]
      | dir n tm ks =>
        obtain ⟨b, rfl, hb⟩ := view_dir hc
        cases d with
        | file n2 tm2 y => obtain ⟨_, hx, _⟩ := view_file hd; cases hx
        | dir n2 tm2 ks2 =>
          obtain ⟨b2, hx, hb2⟩ := view_dir hd
          injection hx with hn hbb
          subst hn; subst hbb
          rw [writeEntries, writeEntries, hemp]
          rw [ih ds _ hcs hds]

mutual
theorem writeNode_view (unz : Unz) (zip : Bytes → Bytes) (compressed : Bool) (x y : Node) (t : FTree)
    (hx : view unz x = some t) (hy : view unz y = some t) (s : Save) :
    writeNode unz zip compressed x s = writeNode unz zip compressed y s := by
  match x, hx with
  | .file n tm d, hx =>
    obtain ⟨b, rfl, -⟩ := view_file hx
    cases y with
    | file n2 tm2 d2 => rw [writeNode, writeNode]
    | dir n2 tm2 ks => obtain ⟨_, h, _⟩ := view_dir hy; cases h
  | .dir n tm cs, hx =>
    obtain ⟨ts, rfl, hcs⟩ := view_dir hx
    cases y with
    | file n2 tm2 d2 => obtain ⟨_, h, _⟩ := view_file hy; cases h
    | dir n2 tm2 ds =>
      obtain ⟨ts2, h, hds⟩ := view_dir hy
      injection h with _ h
      subst h
      rw [writeNode, writeNode, writeEntries_view unz zip compressed cs ds ts hcs hds]
      match writeEntries unz zip compressed ds s with
      | .error e => rfl
      | .ok (offs, s') => exact writeDirs_view unz zip compressed cs ds ts hcs hds offs s'
theorem writeDirs_view (unz : Unz) (zip : Bytes → Bytes) (compressed : Bool) (cs ds : List Node) (ts : List FTree)
    (hx : viewAll unz cs = some ts) (hy : viewAll unz ds = some ts) (offs : List Nat) (s : Save) :
    writeDirs unz zip compressed cs offs s = writeDirs unz zip compressed ds offs s := by
  match cs, hx with
  | [], hx =>
    have := viewAll_length hx; have := viewAll_length hy
    cases ds with
    | nil => rfl
    | cons d ds => simp only [List.length_cons, List.length_nil] at *; omega
  | c :: cs, hx =>
    obtain ⟨t, ts', rfl, hc, hcs⟩ := viewAll_cons hx
    cases ds with
    | nil => simp [viewAll] at hy
    | cons d ds =>
      obtain ⟨t2, ts2, he, hd, hds⟩ := viewAll_cons hy
      injection he with he1 he2
      subst he1; subst he2
      match c, hc with
      | .file n tm x, hc =>
        obtain ⟨b, rfl, hb⟩ := view_file hc
        cases d with
        | dir n2 tm2 ks => obtain ⟨_, hx, _⟩ := view_dir hd; cases hx
        | file n2 tm2 y =>
          rw [writeDirs, writeDirs]
          exact writeDirs_view unz zip compressed cs ds _ hcs hds offs s
      | .dir n tm ks, hc =>
        have hc' := hc
        obtain ⟨b, rfl, hb⟩ := view_dir hc
        cases d with
        | file n2 tm2 y => obtain ⟨_, hx, _⟩ := view_file hd; cases hx
        | dir n2 tm2 ks2 =>
          cases offs with
          | nil => rw [writeDirs, writeDirs]
          | cons off offs =>
            rw [writeDirs, writeDirs]
            rw [writeNode_view unz zip compressed (.dir n tm ks) (.dir n2 tm2 ks2) _ hc' hd]
            match writeNode unz zip compressed (.dir n2 tm2 ks2) _ with
            | .error e => rfl
            | .ok s' => exact writeDirs_view unz zip compressed cs ds _ hcs hds offs s'
end

theorem writeNode_viewAll (unz : Unz) (zip : Bytes → Bytes) (compressed : Bool) (n m : Bytes) (tm tm' : Int) (cs ds : List Node)
    (ts : List FTree) (hx : viewAll unz cs = some ts) (hy : viewAll unz ds = some ts) (s : Save) :
    writeNode unz zip compressed (.dir n tm cs) s = writeNode unz zip compressed (.dir m tm' ds) s := by
  rw [writeNode, writeNode, writeEntries_view unz zip compressed cs ds ts hx hy]
  match writeEntries unz zip compressed ds s with
  | .error e => rfl
  | .ok (offs, s') => exact writeDirs_view unz zip compressed cs ds ts hx hy offs s'

theorem save_viewAll (unz : Unz) (zip : Bytes → Bytes) (compressed g1 : Bool) (dos : BitVec 32) (n m : Bytes) (tm tm' : Int)
    (cs ds : List Node) (ts : List FTree) (hx : viewAll unz cs = some ts) (hy : viewAll unz ds = some ts) :
    save unz zip compressed g1 dos (.dir n tm cs) = save unz zip compressed g1 dos (.dir m tm' ds) := by
  have hc : count (.dir n tm cs) = count (.dir m tm' ds) := by
    rw [count, count, countAll_view cs ts hx, countAll_view ds ts hy]
  unfold save
  rw [hc]
  dsimp only
  rw [writeNode_viewAll unz zip compressed n m tm tm' cs ds ts hx hy]

/-! ## The tree is determined by what is seen at the paths -/

theorem sees_cons (unz : Unz) (n : Bytes) (tm : Int) (cs : List Node) (p : Bytes) (ps : List Bytes) :
    sees unz (.dir n tm cs) (p :: ps) = (entry cs p).bind fun c => sees unz c ps := by
  unfold sees
  rw [lookup]
  cases entry cs p <;> rfl

theorem sight_name (unz : Unz) (x y : Node) (h : sight unz x = sight unz y) : x.name = y.name := by
  cases x <;> cases y <;> simp only [sight] at h <;> (repeat' split at h) <;> simp_all [Node.name]

theorem entry_head {c : Node} {cs : List Node} (hc : Clean c.name) : entry (c :: cs) c.name = some c := by
  unfold entry
  rw [List.find?_cons, key_clean hc]
  simp

theorem entry_tail {c : Node} {cs : List Node} (ho : Ordered (c :: cs)) (p : Bytes) :
    entry cs p = if fold c.name = key p then none else entry (c :: cs) p := by
  unfold entry
  rw [List.find?_cons]
  by_cases h : fold c.name = key p
  · rw [if_pos h, List.find?_eq_none]
    intro x hx
    have hlt := (List.pairwise_cons.1 ho).1 x hx
    simp only [beq_iff_eq]
    intro hxx
    have := ((incomparable_iff c.name x.name).2 (h.trans hxx.symm)).1
    rw [hlt] at this; cases this
  · rw [if_neg h, beq_eq_false_iff_ne.2 h]

/-- The first entries of two directories in which the same names are found have the same name. -/
theorem heads_eq {c d : Node} {cs ds : List Node} (h1 : Ordered (c :: cs)) (h2 : Ordered (d :: ds)) (hc : Clean c.name)
    (hd : Clean d.name) (h : ∀ p, (entry (c :: cs) p).isSome = (entry (d :: ds) p).isSome) : fold c.name = fold d.name := by
  have key : ∀ {c d : Node} {cs ds : List Node}, Ordered (d :: ds) → Clean c.name →
      (∀ p, (entry (c :: cs) p).isSome = (entry (d :: ds) p).isSome) → icompare c.name d.name = false := by
    intro c d cs ds h2 hc h
    have hs := h c.name
    rw [entry_head hc] at hs
    obtain ⟨y, hy⟩ := Option.isSome_iff_exists.1 hs.symm
    have hf := entry_fold hy
    rw [key_clean hc] at hf
    have hm := entry_mem hy
    cases hb : icompare c.name d.name with
    | false => rfl
    | true =>
      have hcy : icompare c.name y.name = true := by
        rcases List.mem_cons.1 hm with rfl | hm
        · exact hb
        · exact icompare_trans hb ((List.pairwise_cons.1 h2).1 y hm)
      have := ((incomparable_iff c.name y.name).2 hf.symm).1
      rw [hcy] at this; cases this
  exact (incomparable_iff _ _).1 ⟨key h2 hc h, key h1 hd (fun p => (h p).symm)⟩

mutual
theorem view_sees (unz : Unz) (x y : Node) (hx : Wf x) (hy : Wf y) (cx : CleanTree x) (cy : CleanTree y)
    (h : ∀ p, sees unz x p = sees unz y p) : view unz x = view unz y := by
  have h0 : sight unz x = sight unz y := by
    have := h []
    simpa [sees, lookup] using this
  match x, hx, cx with
  | .file n tm d, hx, cx =>
    cases y with
    | dir n2 tm2 ks => simp only [sight] at h0; (repeat' split at h0) <;> cases h0
    | file n2 tm2 d2 =>
      simp only [sight, view] at h0 ⊢
      (repeat' split at h0) <;> cases h0 <;> simp_all
  | .dir n tm cs, hx, cx =>
    cases y with
    | file n2 tm2 d2 => simp only [sight] at h0; (repeat' split at h0) <;> cases h0
    | dir n2 tm2 ds =>
      simp only [sight, Sight.dir.injEq] at h0
      subst h0
      cases hx with | dir _ _ _ ox wx =>
      cases hy with | dir _ _ _ oy wy =>
      cases cx with | dir _ _ _ _ kx =>
      cases cy with | dir _ _ _ _ ky =>
      rw [view, view, viewAll_sees unz cs ds ox oy wx wy kx ky (fun p ps => by
        rw [← sees_cons unz n tm, ← sees_cons unz n tm2]; exact h _)]
theorem viewAll_sees (unz : Unz) (cs ds : List Node) (ox : Ordered cs) (oy : Ordered ds) (wx : ∀ c ∈ cs, Wf c)
    (wy : ∀ c ∈ ds, Wf c) (kx : ∀ c ∈ cs, CleanTree c) (ky : ∀ c ∈ ds, CleanTree c)
    (h : ∀ p ps, ((entry cs p).bind fun c => sees unz c ps) = (entry ds p).bind fun c => sees unz c ps) :
    viewAll unz cs = viewAll unz ds := by
  have clean : ∀ {x : Node}, CleanTree x → Clean x.name := fun h => by cases h <;> assumption
  have none_ : ∀ {cs : List Node} {p : Bytes}, ((entry cs p).bind fun c => sees unz c []).isSome = (entry cs p).isSome := by
    intro cs p
    cases entry cs p <;> rfl
  match cs, ox, wx, kx with
  | [], _, _, _ =>
    cases ds with
    | nil => rfl
    | cons d ds =>
      have := h d.name []
      rw [entry_head (clean (ky d (List.mem_cons_self)))] at this
      cases this
  | c :: cs, ox, wx, kx =>
    cases ds with
    | nil =>
      have := h c.name []
      rw [entry_head (clean (kx c (List.mem_cons_self)))] at this
      cases this
    | cons d ds =>
      have hcc := clean (kx c (List.mem_cons_self))
      have hdc := clean (ky d (List.mem_cons_self))
      have hf := heads_eq ox oy hcc hdc (fun p => by rw [← none_, h p [], none_])
      have hk : key c.name = key d.name := by rw [key_clean hcc, key_clean hdc, hf]
      have hhead : ∀ ps, sees unz c ps = sees unz d ps := by
        intro ps
        have := h c.name ps
        rw [entry_head hcc, entry_congr hk, entry_head hdc] at this
        exact this
      rw [viewAll, viewAll, view_sees unz c d (wx c (List.mem_cons_self)) (wy d (List.mem_cons_self)) (kx c (List.mem_cons_self))
        (ky d (List.mem_cons_self)) hhead,
        viewAll_sees unz cs ds ox.tail oy.tail (fun x hx => wx x (List.mem_cons_of_mem _ hx))
          (fun x hx => wy x (List.mem_cons_of_mem _ hx)) (fun x hx => kx x (List.mem_cons_of_mem _ hx))
          (fun x hx => ky x (List.mem_cons_of_mem _ hx)) (fun p ps => by
            rw [entry_tail ox, entry_tail oy, hf]
            by_cases hp : fold d.name = key p
            · rw [if_pos hp, if_pos hp]
            · rw [if_neg hp, if_neg hp]; exact h p ps)]
end

mutual
theorem view_readable (unz : Unz) (x : Node) (hx : Wf x) (cx : CleanTree x) (h : ∀ p n, sees unz x p ≠ some (.unreadable n)) :
    ∃ t, view unz x = some t := by
  match x, hx, cx with
  | .file n tm d, hx, cx =>
    have := h [] n
    simp only [sees, lookup, Option.map_some, sight] at this
    rw [view]
    match hr : readFile unz d with
    | .error e => rw [hr] at this; exact absurd rfl this
    | .ok (sz, bs) =>
      rw [hr] at this
      dsimp only at this ⊢
      by_cases hl : bs.length = sz
      · rw [if_pos hl]; exact ⟨_, rfl⟩
      · rw [if_neg hl] at this; exact absurd rfl this
  | .dir n tm cs, hx, cx =>
    cases hx with | dir _ _ _ ox wx =>
    cases cx with | dir _ _ _ _ kx =>
    obtain ⟨ts, hts⟩ := viewAll_readable unz cs ox wx kx (fun p ps m => by rw [← sees_cons unz n tm]; exact h _ m)
    exact ⟨.dir n ts, by rw [view, hts]⟩
theorem viewAll_readable (unz : Unz) (cs : List Node) (ox : Ordered cs) (wx : ∀ c ∈ cs, Wf c) (kx : ∀ c ∈ cs, CleanTree c)
    (h : ∀ p ps n, ((entry cs p).bind fun c => sees unz c ps) ≠ some (.unreadable n)) : ∃ ts, viewAll unz cs = some ts := by
  have clean : ∀ {x : Node}, CleanTree x → Clean x.name := fun h => by cases h <;> assumption
  match cs, ox, wx, kx with
  | [], _, _, _ => exact ⟨[], by rw [viewAll]⟩
  | c :: cs, ox, wx, kx =>
    have hcc := clean (kx c (List.mem_cons_self))
    obtain ⟨t, ht⟩ := view_readable unz c (wx c (List.mem_cons_self)) (kx c (List.mem_cons_self)) (fun ps n hps => by
      have := h c.name ps n
      rw [entry_head hcc] at this
      exact this hps)
    obtain ⟨ts, hts⟩ := viewAll_readable unz cs ox.tail (fun x hx => wx x (List.mem_cons_of_mem _ hx))
      (fun x hx => kx x (List.mem_cons_of_mem _ hx)) (fun p ps n hps => by
        rw [entry_tail ox] at hps
        by_cases hp : fold c.name = key p
        · rw [if_pos hp] at hps; cases hps
        · rw [if_neg hp] at hps; exact h p ps n hps)
    exact ⟨t :: ts, by rw [viewAll, ht, hts]⟩
end

end Verif.Vfs
