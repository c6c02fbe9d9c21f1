import Verif.Lemmas.VfsHost
import Verif.Props.Vfs

/-!
# C97: mounting a directory of the host
-/

namespace Verif.Props

open Verif.Vfs Verif.Spec
open Zip (Unz)

/-- C97, as far as it goes: with names that differ in more than their case, everything below the directory but the
files without content is merged into the mount point, with the contents of the files, by the policy; nothing else
changes. -/
theorem c97_mount_partial (unz : Unz) (clock : Int) (hs : List Host) (hok : HostsOk hs) (parent : Bytes) (o : Overwrite)
    (root : Node) (hw : Wf root) {n t cs} (hl : lookup root (comps parent) = some (.dir n t cs)) :
    ∃ kids root', (∀ p ps, (lookup (.dir n t kids) (p :: ps)).bind (seen unz) = hostAt clock hs (p :: ps)) ∧
      mountHost clock hs parent o root = (root', .ok ()) ∧ Wf root' ∧
      ∀ q, (lookup root' q).map info = match strip (comps parent) q with
        | some [] => some (.dir n t)
        | some (p :: ps) => merged o cs kids (p :: ps)
        | none => (lookup root q).map info := by
  obtain ⟨kids, hk, ht, -⟩ := hostAll_spec clock hs hok [] .nil
  obtain ⟨root', e, w, l, q⟩ := mountEach_spec o kids root hw ht.wf parent hl
  refine ⟨kids, root', fun p ps => hostAll_seen unz clock (p :: ps) (by simp) hs hok kids hk n t,
    by simp only [mountHost, hk, e], w, ?_⟩
  intro x
  cases hx : strip (comps parent) x with
  | none => exact q x hx
  | some y =>
    rw [lookup_strip l hx]
    cases y with
    | nil => rfl
    | cons p ps =>
      have hd := lookup_wf hw hl
      exact mountFold_merged o p ps kids cs n t ht hd.ordered (fun _ => hd.kids)

/-- C97, as far as it goes, into an empty Vfs: exactly the tree of the host without the files that have no content, with
the contents of all files. -/
theorem c97_tree_partial (unz : Unz) (clock : Int) (hs : List Host) (hok : HostsOk hs) (o : Overwrite) :
    ∃ root, mountHost clock hs b!"/" o empty = (root, .ok ()) ∧ Wf root ∧
      ∀ p ps, (lookup root (p :: ps)).bind (seen unz) = hostAt clock hs (p :: ps) := by
  have hw : Wf empty := Wf.dir _ _ _ List.Pairwise.nil (by simp)
  obtain ⟨kids, hk, ht, -⟩ := hostAll_spec clock hs hok [] .nil
  have hc : comps b!"/" = [] := by decide
  obtain ⟨root', e, w, l, -⟩ := mountEach_spec o kids empty hw ht.wf b!"/" (n := b!"/") (t := -1) (cs := []) (by rw [hc]; rfl)
  refine ⟨root', by simp only [mountHost, hk, e], w, ?_⟩
  intro p ps
  rw [hc] at l
  simp only [lookup, Option.some.injEq] at l
  rw [l, ← hostAll_seen unz clock (p :: ps) (by simp) hs hok kids hk b!"/" (-1), lookup_cons, lookup_cons,
    entry_mountFold o kids [] ht.ordered ht.wf (fun c hx => Clean_of_tree (ht.clean c hx)) List.Pairwise.nil (by simp)]
  cases entry kids p with
  | none => rfl
  | some y => rfl

/-- Two directories and three files, one of them empty. -/
def demoHost : List Host :=
  [.dir b!"Worlds" 5 [.file b!"NEWWORLD.ZEN" 7 b!"ZenGin", .file b!"empty" 8 []], .file b!"readme.txt" 9 b!"hello", .dir b!"X" 1 []]

example : HostsOk demoHost ∧ hostAt 0 demoHost [b!"worlds", b!"newworld.zen"] = some (.file b!"NEWWORLD.ZEN" 7 b!"ZenGin") ∧
    hostAt 0 demoHost [b!"worlds", b!"empty"] = none ∧ hostAt 0 demoHost [b!"X"] = some (.dir b!"X" 1) := by
  refine ⟨?_, by decide, by decide, by decide⟩
  unfold demoHost
  refine ⟨⟨by decide, ⟨by show Clean _; decide, ?_, by show Clean _; decide, ?_, trivial⟩⟩, ?_, by show Clean _; decide, ?_,
    ⟨by decide, trivial⟩, ?_, trivial⟩ <;> simp [Host.name] <;> decide

/-- C97, violated: a file without content is left out. -/
theorem c97_empty_violation (clock : Int) (n : Bytes) (t : Int) (parent : Bytes) (o : Overwrite) (root : Node) :
    mountHost clock [.file n t []] parent o root = (root, .ok ()) := rfl

/-- C97, violated: of two files whose names are the same but for their case only the one that is visited last is kept. -/
theorem c97_case_violation (clock : Int) (n1 n2 : Bytes) (t1 t2 : Int) (c1 c2 : Bytes) (h1 : Clean n1) (h2 : Clean n2)
    (hf : fold n1 = fold n2) (hc1 : c1 ≠ []) (hc2 : c2 ≠ []) (o : Overwrite) :
    ∃ root, mountHost clock [.file n1 t1 c1, .file n2 t2 c2] b!"/" o empty = (root, .ok ()) ∧
      lookup root [n1] = some (mkFile n2 (t2 - clock) c2) ∧ lookup root [n2] = some (mkFile n2 (t2 - clock) c2) := by
  have hw : Wf empty := Wf.dir _ _ _ List.Pairwise.nil (by simp)
  have o0 : Ordered [] := List.Pairwise.nil
  obtain ⟨k1, e1, t1', -⟩ := hostOne_spec clock (.file n1 t1 c1) h1 [] .nil
  obtain ⟨k2, e2, t2', s2⟩ := hostOne_spec clock (.file n2 t2 c2) h2 k1 t1'
  have hk : hostAll clock [.file n1 t1 c1, .file n2 t2 c2] [] = .ok k2 := by simp only [hostAll, e1, e2]
  have hc : comps b!"/" = [] := by decide
  obtain ⟨root', e, w, l, -⟩ := mountEach_spec o k2 empty hw t2'.wf b!"/" (n := b!"/") (t := -1) (cs := []) (by rw [hc]; rfl)
  rw [hc] at l
  simp only [lookup, Option.some.injEq] at l
  have key12 : key n1 = key n2 := by rw [key_clean h1, key_clean h2, hf]
  have hx : ∀ p, key n2 = key p → lookup root' [p] = some (mkFile n2 (t2 - clock) c2) := by
    intro p hp
    have := s2 p
    rw [if_pos ⟨hp, by simpa [Host.creates] using hc2⟩] at this
    obtain ⟨x, hx, hl⟩ := this
    cases hl
    rw [l, lookup_cons, entry_mountFold o k2 [] t2'.ordered t2'.wf (fun c hx => Clean_of_tree (t2'.clean c hx)) o0 (by simp), hx]
    rfl
  exact ⟨root', by simp only [mountHost, hk, e], hx n1 key12.symm, hx n2 rfl⟩

example : Clean b!"A.TXT" ∧ Clean b!"a.txt" ∧ fold b!"A.TXT" = fold b!"a.txt" := by decide

/-- The epoch of `std::chrono::file_clock` in libstdc++: the start of 2174. -/
def libstdcxxClock : Int := 6437664000

/-- C97, violated with libstdc++: `OLDER` never replaces a file by a newer one of the host, because the times of the host
are counted from another epoch and are negative. -/
theorem c97_time_violation (e t : Int) (he : 0 ≤ e) (hn : e < t) (ht : t < libstdcxxClock) (c d : Bytes) (hd : d ≠ []) :
    ∃ root, Wf (.dir b!"/" (-1) [mkFile b!"A" e c]) ∧ takesPlace .older e t ∧
      mountHost libstdcxxClock [.file b!"A" t d] b!"/" .older (.dir b!"/" (-1) [mkFile b!"A" e c]) = (root, .ok ()) ∧
      (lookup root [b!"A"]).map info = some (info (mkFile b!"A" e c)) := by
  have hw : Wf (.dir b!"/" (-1) [mkFile b!"A" e c]) :=
    Wf.dir _ _ _ (List.pairwise_singleton _ _) (by simp [mkFile]; exact Wf.file _ _ _)
  have hc : comps b!"/" = [] := by decide
  have hok : HostsOk [.file b!"A" t d] := ⟨by show Clean _; decide, by simp, trivial⟩
  obtain ⟨kids, hk, htd, hent⟩ := hostAll_spec libstdcxxClock [.file b!"A" t d] hok [] .nil
  obtain ⟨root', e1, w, l, -⟩ := mountEach_spec .older kids _ hw htd.wf b!"/" (by rw [hc]; rfl)
  refine ⟨root', hw, hn, by simp only [mountHost, hk, e1], ?_⟩
  rw [hc] at l
  simp only [lookup, Option.some.injEq] at l
  have hen := hent b!"A"
  rw [show [Host.file b!"A" t d].find? (fun h => fold h.name == key b!"A") = some (.file b!"A" t d) from by
    rw [List.find?_cons]; simp only [Host.name]; rw [show (fold b!"A" == key b!"A") = true by decide]] at hen
  simp only at hen
  rw [if_pos (by simpa [Host.creates] using hd)] at hen
  obtain ⟨x, hx, hl⟩ := hen
  cases hl
  have hold : entry [mkFile b!"A" e c] b!"A" = some (mkFile b!"A" e c) := by
    rw [entry_cons]; exact if_pos (by simp only [mkFile, Node.name]; decide)
  rw [l, mountFold_merged .older b!"A" [] kids _ _ _ htd (List.pairwise_singleton _ _) (by simp [mkFile]; exact Wf.file _ _ _)]
  unfold merged
  rw [hold, hx]
  have : ¬ takesPlace .older (mkFile b!"A" e c).time
      (Node.file b!"A" (t - libstdcxxClock) (Desc.make d 0 d.length false 0)).time := by
    simp only [takesPlace, Node.time, libstdcxxClock, mkFile] at *; omega
  exact if_neg this

example : (0 : Int) ≤ 1000000000 ∧ (1000000000 : Int) < 1700000000 ∧ (1700000000 : Int) < libstdcxxClock := by decide

/-- C97, violated: a mount point that does not exist is not reported when there is nothing to mount. -/
theorem c97_missing_violation (clock : Int) (parent : Bytes) (o : Overwrite) (root : Node) :
    mountHost clock [] parent o root = (root, .ok ()) := rfl

/-- Otherwise it is, and nothing changes. -/
theorem c97_missing_partial (clock : Int) (hs : List Host) (hok : HostsOk hs) (parent : Bytes) (o : Overwrite) (root : Node)
    (hw : Wf root) (hany : hs.any Host.creates = true) (hl : lookup root (comps parent) = none)
    (ht : ¬ ThroughFile root (comps parent)) :
    mountHost clock hs parent o root = (root, .error (.throw .vfsNotFound)) := by
  obtain ⟨kids, hk, htd, hent⟩ := hostAll_spec clock hs hok [] .nil
  obtain ⟨h, hm, hc⟩ := List.any_eq_true.1 hany
  have hne : ∃ x xs, kids = x :: xs := by
    cases kids with
    | cons x xs => exact ⟨x, xs, rfl⟩
    | nil =>
      exfalso
      have hp := hent h.name
      have hkey : key h.name = fold h.name := key_clean (hostOk_clean (hostsOk_mem hok hm))
      cases hf : hs.find? (fun x => fold x.name == key h.name) with
      | none =>
        rw [List.find?_eq_none] at hf
        exact hf h hm (by rw [hkey]; simp)
      | some y =>
        have : y = h := by
          have hy := List.mem_of_find?_eq_some hf
          have hfy : fold y.name = fold h.name := by
            have := List.find?_some hf
            rw [hkey] at this; exact beq_iff_eq.1 this
          clear hent hp hf hany hk
          induction hs with
          | nil => cases hm
          | cons a as ih =>
            rcases List.mem_cons.1 hm with rfl | hm'
            · rcases List.mem_cons.1 hy with rfl | hy'
              · rfl
              · exact absurd hfy (hok.2.1 y hy')
            · rcases List.mem_cons.1 hy with rfl | hy'
              · exact absurd hfy.symm (hok.2.1 h hm')
              · exact ih hok.2.2 hm' hy'
        rw [hf] at hp
        subst this
        simp only at hp
        rw [if_pos hc] at hp
        obtain ⟨x, hx, -⟩ := hp
        cases hx
  obtain ⟨x, xs, rfl⟩ := hne
  rcases c25_mount o root x hw (htd.wf x (by simp)) (htd.clean x (by simp)) parent with h | h | ⟨_, _, _, h, _⟩ | ⟨_, _, _, _, h, _⟩
  · exact absurd h.1 ht
  · simp only [mountHost, hk, mountEach, h.2.2]
  · rw [hl] at h; cases h
  · rw [hl] at h; cases h

/-- C97, violated: a single file can not be mounted, and a path that does not exist is reported by an exception that is
not documented. The Vfs stays as it is. -/
theorem c97_file_violation (clock : Int) (n : Bytes) (t : Int) (c : Bytes) (parent : Bytes) (o : Overwrite) (root : Node) :
    mountPath clock (some (.file n t c)) parent o root = (root, .error (.throw .filesystem)) ∧
    mountPath clock none parent o root = (root, .error (.throw .filesystem)) ∧
    ∀ m u hs, mountPath clock (some (.dir m u hs)) parent o root = mountHost clock hs parent o root :=
  ⟨rfl, rfl, fun _ _ _ => rfl⟩

end Verif.Props
