import Verif.Lemmas.ArchiveGraphFmt
import Verif.Lemmas.ObjAny
import Verif.Lemmas.ObjGame
import Verif.Lemmas.Texture
import Verif.Model.SaveGame

/-! # Lemmas about saved games -/

namespace Verif.SaveGame

open Verif.Ar Verif.Obj Verif.Props

/-! ### Files with ASCII archives -/

/-- Opening the finished archive: the header is read, and the content follows. -/
theorem asc_file_open (save : Bool) (k : Clock) (d : Doc) (hn : d.Numbered 0) (hok : Asc.OkDoc d)
    (hde : k.start.date.length + k.start.user.length = k.finish.date.length + k.finish.user.length) (hd : NoEol k.finish.date)
    (hu : NoEol k.finish.user) (hidx : (d.next 0).toNat < 2 ^ 31) (data : Bytes) (hdata : data = asciiFile save k d.calls) :
    ∃ o s, openArchive ⟨data, 0⟩ = .ok (o, s) ∧ o.header.save = save ∧ o.header.format = .ascii ∧
      (Asc.simSkip k.junk data [] ⟨by simp, by simp⟩).R [d] s := by
  obtain ⟨e, e', junk⟩ := k
  dsimp only at *
  have h1 := emits_countHeader .ascii 10 11 false e 0 (Ws.mk [] 0) (by simp)
  have hw1 := Ws.write_le (w := Ws.mk [] 0) (linesBytes .ascii false e ++ countBytes 10 11 0) (by simp)
  have hwr := Asc.write_doc d ⟨(Ws.mk [] 0).write (linesBytes .ascii false e ++ countBytes 10 11 0), 0, 0, junk⟩ hw1 hn []
  rw [List.append_nil] at hwr
  unfold asciiFile at hdata
  simp only [Asc.writeHeader] at hdata
  rw [h1, hwr] at hdata
  simp only [Asc.calls, List.foldl_nil] at hdata
  rw [Ws.write_write _ _ _ (by simp)] at hdata
  have hrw := rewrite_countHeader .ascii 10 11 false save e e' 0 (d.next 0) (by decide) (Ws.mk [] 0) (by simp) hde
    (Asc.text (Asc.lines junk 0 d))
  dsimp only at hrw
  rw [hrw] at hdata
  have hop := open_count .ascii (by decide) 10 11 save e' (d.next 0) (dec_length_le _ 10 (by decide) (by omega)) hidx hd hu
  generalize linesBytes .ascii save e' ++ countBytes 10 11 (d.next 0) = H' at *
  generalize hT : Asc.text (Asc.lines junk 0 d) = T at *
  replace hdata : data = H' ++ T := by
    rw [hdata]
    simp [Ws.write, splice_le]
  obtain ⟨ws, b', e1, e2, e3⟩ := Asc.body_text [] (Asc.lines junk 0 d) 0 T (Asc.lines_head _ _ _) (by rw [hT]; simp)
  have hws : ws = [] := by rw [e2]; split <;> rfl
  rw [hws, List.nil_append] at e1
  have hsolid : Solid T := by
    rw [e1]
    refine Asc.body_solid [] ⟨by simp, by simp⟩ _ ?_ b' e3
    intro l hl
    obtain ⟨p, hp, rfl⟩ := List.mem_map.1 hl
    exact Asc.lines_ok junk 0 d hok p hp
  have ho := hop.atPos data 0 T (by rw [hdata]; simp) (by rw [hdata]; rfl) hsolid
  refine ⟨_, _, ho.1, rfl, rfl, rfl, by simpa using hok, ho.2.1, ?_⟩
  show Asc.Body [] ((Asc.lines junk 0 d).map (·.2)) (List.drop _ _)
  rw [ho.2.2, e1]
  exact e3

/-- Writing a graph of objects to a file with an ASCII archive and reading it. -/
theorem asc_file_graph (H : GHeap) (roots : List Field) (dom : List Nat) (S : Schema)
    (hg : GraphOk H roots dom S (fun n v => Asc.OkKey n ∧ Asc.OkVal v) (fun n c _ _ => Asc.OkName n ∧ Asc.OkName c))
    (hdom : dom.length < 2 ^ 31) (save : Bool) (k : Clock)
    (hde : k.start.date.length + k.start.user.length = k.finish.date.length + k.finish.user.length) (hd : NoEol k.finish.date)
    (hu : NoEol k.finish.user) :
    ∃ cs g, writeFields (writePtr H (dom.length + 1)) roots ⟨0, []⟩ = .ok (cs, g) ∧
      ∃ o s, openArchive ⟨asciiFile save k cs, 0⟩ = .ok (o, s) ∧ o.header.save = save ∧ o.header.format = .ascii ∧
        ∀ top, Follows top roots → ∃ N s' heap cache φ, (∀ f1 ≥ N, ∀ f2 ≥ N,
            readFields Asc.reader (readPtr Asc.reader S f1) top f2 [] s ⟨[], []⟩ = .ok (roots.map (Field.got φ), s', ⟨heap, cache⟩)) ∧
          IsCopy H roots heap φ := by
  obtain ⟨cs, g, hwr, _⟩ := writeFields_total dom H (dom.length + 1) (writePtr_total hg _) roots ⟨0, []⟩ hg.rootsIn
    (by simp [unwritten]; exact Nat.lt_succ_of_le (List.length_filter_le _ _))
  refine ⟨cs, g, hwr, ?_⟩
  obtain ⟨d, h1, h2, h3, hall, ⟨n, hn, hix⟩, hread⟩ := graph_round_trip (Asc.simSkip k.junk (asciiFile save k cs) [] ⟨by simp, by simp⟩)
    hg 0 _ cs g hwr
  obtain ⟨o, s, ho, hs, hf, hR⟩ := asc_file_open save k d h2 hall hde hd hu
    (by rw [h3, hix]; simp; omega) (asciiFile save k cs) (by rw [h1])
  refine ⟨o, s, ho, hs, hf, ?_⟩
  intro top htop
  obtain ⟨N, s', heap, cache, φ, hN, _, hcopy, _⟩ := hread top s htop hR
  exact ⟨N, s', heap, cache, φ, hN, hcopy⟩

theorem ebind_ok {α β : Type} (a : α) (f : α → Except Fail β) : ((.ok a : Except Fail α) >>= f) = f a := rfl

theorem mapM_total {α β : Type} {f : α → Except Fail β} (l : List α) (h : ∀ x ∈ l, ∃ y, f x = .ok y) :
    ∃ ys, l.mapM f = .ok ys ∧ ∀ (i : Nat) x, l[i]? = some x → ∃ y, f x = .ok y ∧ ys[i]? = some y := by
  induction l with
  | nil => exact ⟨[], rfl, by intro i x hx; simp at hx⟩
  | cons a l ih =>
    obtain ⟨y, hy⟩ := h a List.mem_cons_self
    obtain ⟨ys, h1, h2⟩ := ih fun x hx => h x (List.mem_cons_of_mem _ hx)
    refine ⟨y :: ys, ?_, ?_⟩
    · rw [List.mapM_cons, hy, ebind_ok, h1]
      rfl
    · intro i x hx
      cases i with
      | zero => simp at hx; subst hx; exact ⟨y, hy, rfl⟩
      | succ i => exact h2 i x (by simpa using hx)

/-- What can be asked about the copies of objects. -/
theorem agree_of_copy {c : Ctx} {T : Heap} {H : GHeap} {roots : List Field} {dom : List Nat} {pv : Bytes → Val → Prop}
    {po : Bytes → Bytes → BitVec 16 → BitVec 32 → Prop} (h : T.Ok c H roots dom pv po) {heap : List (ObjectType × List Got)}
    {φ : Nat → Nat} (hc : IsCopy H roots heap φ) : Agree T.env id (readEnv heap) φ T.flag := by
  refine ⟨?_, fun b => (h.flags b).symm⟩
  intro t b hb
  simp only [Heap.env, id] at hb
  cases hT : T b with
  | none => rw [hT] at hb; cases hb
  | some m =>
    rw [hT] at hb
    obtain ⟨o', ho', hh'⟩ := hc.copy b (h.all b m hT)
    obtain ⟨m', fs', e1, e2, rfl⟩ := h.node ho'
    rw [hT] at e1
    cases e1
    simp only [readEnv, Env.of, hh']
    exact hb

/-- Writing an archive for a saved game and loading it. -/
theorem readFile_archive {τ : Type → Type} (game : Obj.Game) (save : Bool) (p : Ctx → (P : Type) → Obj.Env P → Ld P (τ P)) (c : Ctx)
    (hctx : c = ⟨game, save, true⟩) (T : Heap) (roots : List Field) (dom : List Nat) (k : Clock)
    (hok : T.Ok c (saved c T) roots dom (fun n v => Asc.OkKey n ∧ Asc.OkVal v) (fun n c _ _ => Asc.OkName n ∧ Asc.OkName c))
    (hdom : dom.length < 2 ^ 31)
    (hde : k.start.date.length + k.start.user.length = k.finish.date.length + k.finish.user.length) (hd : NoEol k.finish.date)
    (hu : NoEol k.finish.user) (y : (P : Type) → (Nat → P) → τ P)
    (hp : ∀ {P} (env : Obj.Env P) (φ : Nat → P), Agree T.env id env φ T.flag → Loads env φ (p c P env) roots (y P φ)) :
    ∃ data, archiveFile c k T (dom.length + 1) roots = .ok data ∧ ∃ N heap objs φ,
      (∀ fuel ≥ N, readFile game p fuel data = .ok (y Nat φ, objs)) ∧
      (∀ a n, T a = some n → objs[φ a]? = some (n.obj.copy c (readEnv heap) φ)) ∧
      (∀ a b, (T a).isSome → (T b).isSome → φ a = φ b → a = b) ∧ Agree T.env id (readEnv heap) φ T.flag := by
  obtain ⟨cs, g, hw, o, s, ho, hs, hf, hread⟩ := asc_file_graph (saved c T) roots dom (schema c) hok.graph hdom save k hde hd hu
  have hsave : c.save = save := by rw [hctx]
  refine ⟨asciiFile save k cs, ?_, ?_⟩
  · unfold archiveFile
    rw [hw, hsave]
    rfl
  obtain ⟨N, s', heap, cache, φ, hN, hcopy⟩ := hread (p c Unit anyEnv).want
    (Loads.follows (fun _ _ => rfl) (hp anyEnv (fun _ => ()) ⟨fun _ _ _ => rfl, fun a => (hok.flags a).symm⟩))
  have hag := agree_of_copy hok hcopy
  have hres := hok.restored hcopy
  obtain ⟨objs, hm, hget⟩ := mapM_total (f := loadObject c heap) heap (by
    intro x hx
    obtain ⟨i, hi, hix⟩ := List.mem_iff_getElem.1 hx
    obtain ⟨a, ha, hai⟩ := hcopy.onto i hi
    obtain ⟨q, hq, _⟩ := hcopy.copy a ha
    obtain ⟨n, fs, h1, _, _⟩ := hok.node hq
    obtain ⟨kk, gs, h3, h4, h5⟩ := hres a n h1
    rw [hai, List.getElem?_eq_getElem hi, hix] at h3
    injection h3 with h3
    subst h3
    simp only [loadObject, h4, h5]
    exact ⟨_, rfl⟩)
  refine ⟨N, heap, objs, φ, ?_, ?_, ?_, hag⟩
  · intro fuel hfuel
    unfold readFile
    rw [ho, ebind_ok]
    dsimp only
    rw [hf, hs, ← hctx]
    dsimp only
    unfold readFrom
    rw [hN fuel hfuel fuel hfuel, ebind_ok]
    dsimp only
    rw [hm, ebind_ok]
    have hl := hp (readEnv heap) φ hag []
    rw [List.append_nil] at hl
    rw [List.map_map]
    have e : Got.item ∘ Field.got φ = Field.item φ := by
      funext f
      cases f <;> rfl
    rw [e, hl]
    rfl
  · intro a n ha
    obtain ⟨kk, gs, h3, h4, h5⟩ := hres a n ha
    obtain ⟨x, h6, h7⟩ := hget _ _ h3
    simp only [loadObject, h4, h5] at h6
    cases h6
    exact h7
  · intro a b ha hb
    obtain ⟨n, hn⟩ := Option.isSome_iff_exists.1 ha
    obtain ⟨m, hm⟩ := Option.isSome_iff_exists.1 hb
    exact hcopy.inj a b (hok.all a n hn) (hok.all b m hm)

/-! ### Directories -/

theorem get_put (d : Dir) (n c m : Bytes) : (d.put n c).get m = if m = n then some c else d.get m := by
  unfold Dir.put Dir.get
  rw [List.lookup_cons]
  by_cases h : m = n
  · subst h; simp
  · rw [if_neg h]
    have : (m == n) = false := by simpa using h
    rw [this]
    dsimp only
    induction d with
    | nil => rfl
    | cons f d ih =>
      rw [List.filter_cons]
      split
      · rw [List.lookup_cons, List.lookup_cons, ih]
      · rename_i hf
        have hf' : f.1 = n := by simpa using hf
        rw [ih, List.lookup_cons]
        have : (m == f.1) = false := by rw [hf']; simpa using h
        rw [this]

/-- Names without small letters. -/
def Upper (n : Bytes) : Prop := ∀ c ∈ n, ¬ (97 ≤ c.toNat ∧ c.toNat ≤ 122)

theorem lower_le {a b : Byte} (h : Vfs.tolower a = Vfs.tolower b) (hb : ¬ (97 ≤ b.toNat ∧ b.toNat ≤ 122)) : a = b ∨ b < a := by
  have ha := UInt8.toNat_lt a
  have hb' := UInt8.toNat_lt b
  rw [UInt8.lt_iff_toNat_lt, ← UInt8.toNat_inj]
  unfold Vfs.tolower at h
  dsimp only at h
  split at h <;> split at h <;> split at h <;> split at h <;> omega

theorem upper_first : ∀ {m n : Bytes}, Vfs.iequals m n = true → Upper n → nameLt m n = false ∧ (m ≠ n → nameLt n m = true)
  | [], [], _, _ => ⟨rfl, fun h => absurd rfl h⟩
  | [], _ :: _, h, _ => by cases h
  | _ :: _, [], h, _ => by cases h
  | a :: as, b :: bs, h, hu => by
    simp only [Vfs.iequals, Bool.and_eq_true, beq_iff_eq] at h
    obtain ⟨h1, h2⟩ := upper_first h.2 fun c hc => hu c (List.mem_cons_of_mem _ hc)
    rcases lower_le h.1 (hu b List.mem_cons_self) with rfl | hlt
    · constructor
      · simp only [nameLt, h1, Bool.and_false, Bool.or_false, decide_eq_false_iff_not]
        exact fun h => absurd h (by rw [UInt8.lt_iff_toNat_lt]; omega)
      · intro hne
        have : as ≠ bs := by rintro rfl; exact hne rfl
        simp [nameLt, h2 this]
    · have hlt' := UInt8.lt_iff_toNat_lt.1 hlt
      constructor
      · simp only [nameLt, Bool.or_eq_false_iff, decide_eq_false_iff_not, Bool.and_eq_false_iff]
        refine ⟨fun h => absurd (UInt8.lt_iff_toNat_lt.1 h) (by omega), .inl ?_⟩
        rintro rfl
        omega
      · intro _
        simp [nameLt, hlt]

theorem iequals_refl (n : Bytes) : Vfs.iequals n n = true := by
  induction n with
  | nil => rfl
  | cons a n ih => simp [Vfs.iequals, ih]

/-- A name in capital letters is found whatever other spellings there are in the directory. -/
theorem findMatching_of_get {d : Dir} {n c : Bytes} (hu : Upper n) (h : d.get n = some c) : findMatching d n = some (n, c) := by
  unfold Dir.get at h
  induction d with
  | nil => cases h
  | cons f d ih =>
    have hmem : ∀ (d : Dir) b, findMatching d n = some b → Vfs.iequals b.1 n = true := by
      intro d
      unfold findMatching
      induction d with
      | nil => intro b hb; cases hb
      | cons f d ih =>
        intro b hb
        rw [List.filter_cons] at hb
        split at hb
        · rename_i hf
          rw [List.foldr_cons] at hb
          injection hb with hb
          cases hr : List.foldr (fun f r => some (firstOf f r)) none (List.filter (fun f => Vfs.iequals f.1 n) d) with
          | none => rw [hr] at hb; rw [← hb]; exact hf
          | some x =>
            rw [hr] at hb
            unfold firstOf at hb
            dsimp only at hb
            split at hb
            · rw [← hb]; exact ih x hr
            · rw [← hb]; exact hf
        · exact ih b hb
    rw [List.lookup_cons] at h
    have hstep : findMatching (f :: d) n =
        if Vfs.iequals f.1 n then some (firstOf f (findMatching d n)) else findMatching d n := by
      unfold findMatching
      rw [List.filter_cons]
      split <;> rfl
    rw [hstep]
    by_cases hf : n = f.1
    · subst hf
      simp only [BEq.rfl] at h
      rw [if_pos (iequals_refl _)]
      cases hr : findMatching d f.1 with
      | none => injection h with h; rw [← h]; rfl
      | some b =>
        have := (upper_first (hmem d b hr) hu).1
        unfold firstOf
        simp only [this, Bool.false_eq_true, if_false]
        injection h with h
        rw [← h]
    · have hb : (n == f.1) = false := by simpa using hf
      rw [hb] at h
      rw [ih h]
      split
      · rename_i he
        unfold firstOf
        simp only [(upper_first he hu).2 (fun e => hf e.symm), if_true]
      · rfl

/-! ### Saving -/

theorem runOps_append (a b : List Op) (fs : Fs) : runOps (a ++ b) fs = runOps b (runOps a fs) := by
  simp [runOps, List.foldl_append]

theorem runOps_writeFile (p : Path) (n c : Bytes) (fs : Fs) :
    runOps (writeFile p n c) fs (resolve p) = (fs (resolve p)).map fun d => (d.put n []).put n c := by
  simp only [runOps, writeFile, List.foldl_cons, List.foldl_nil, Op.after, Fs.setFile, if_true, Option.map_map]
  rfl

/-- Writing a file changes that file only. -/
theorem writeFile_get {p : Path} {n c : Bytes} {fs : Fs} {d : Dir} (h : fs (resolve p) = some d) :
    ∃ d', runOps (writeFile p n c) fs (resolve p) = some d' ∧ ∀ m, d'.get m = if m = n then some c else d.get m := by
  refine ⟨_, by rw [runOps_writeFile, h]; rfl, ?_⟩
  intro m
  rw [get_put]
  split
  · rfl
  · rename_i hm; rw [get_put, if_neg hm]

theorem prepare_dir (g : Game) (path : Path) (fs : Fs) (h : g.path = path → (fs (resolve path)).isSome) :
    ∃ d, runOps (g.prepare path fs) fs (resolve path) = some d := by
  unfold Game.prepare
  by_cases hp : g.path = path
  · rw [if_neg (by simpa using hp)]
    exact Option.isSome_iff_exists.1 (h hp)
  · rw [if_pos hp, runOps_append]
    have e : runOps (if (fs (resolve path)).isSome = true then [Op.removeAll path] else []) fs =
        (if (fs (resolve path)).isSome then (Op.removeAll path).after fs else fs) := by
      split <;> rfl
    rw [e]
    generalize (if (fs (resolve path)).isSome then (Op.removeAll path).after fs else fs) = fs1
    split
    · rename_i h2
      obtain ⟨d, hd⟩ := Option.isSome_iff_exists.1 h2.2
      refine ⟨d, ?_⟩
      simp [runOps, Op.after, hd]
    · exact ⟨(fs1 (resolve path)).getD [], by simp [runOps, Op.after]⟩

/-- The directory after saving. -/
theorem steps_dir {g : Game} {path : Path} {world content : Bytes} {fs : Fs} {info data : Bytes}
    (h : g.path = path → (fs (resolve path)).isSome) :
    ∃ d d', runOps (g.prepare path fs) fs (resolve path) = some d ∧
      runOps (g.prepare path fs ++ (writeFile path b!"SAVEINFO.SAV" info ++ (writeFile path b!"THUMB.SAV" g.thumbFile ++
        (writeFile path b!"SAVEHDR.SAV" (headerFile world) ++ (writeFile path b!"SAVEDAT.SAV" data ++
        writeFile path (world ++ b!".SAV") content))))) fs (resolve path) = some d' ∧
      ∀ m, d'.get m = if m = world ++ b!".SAV" then some content else if m = b!"SAVEDAT.SAV" then some data else
        if m = b!"SAVEHDR.SAV" then some (headerFile world) else if m = b!"THUMB.SAV" then some g.thumbFile else
        if m = b!"SAVEINFO.SAV" then some info else d.get m := by
  obtain ⟨d, hd⟩ := prepare_dir g path fs h
  obtain ⟨d1, h1, g1⟩ := writeFile_get (n := b!"SAVEINFO.SAV") (c := info) hd
  obtain ⟨d2, h2, g2⟩ := writeFile_get (n := b!"THUMB.SAV") (c := g.thumbFile) h1
  obtain ⟨d3, h3, g3⟩ := writeFile_get (n := b!"SAVEHDR.SAV") (c := headerFile world) h2
  obtain ⟨d4, h4, g4⟩ := writeFile_get (n := b!"SAVEDAT.SAV") (c := data) h3
  obtain ⟨d5, h5, g5⟩ := writeFile_get (n := world ++ b!".SAV") (c := content) h4
  refine ⟨d, d5, hd, ?_, ?_⟩
  · simp only [runOps_append]; exact h5
  · intro m; rw [g5, g4, g3, g2, g1]

end Verif.SaveGame
