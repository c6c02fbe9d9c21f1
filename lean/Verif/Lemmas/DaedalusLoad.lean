import Verif.Spec.DaedalusLoad
import Verif.Lemmas.DaedalusEff

/-! # Lemmas about the loading of scripts -/

namespace Verif.Daedalus

open Verif.Spec.Daedalus

/-! ## Bit fields -/

theorem props_toNat {e : Entry} (h : e.Ok) :
    e.props.toNat = e.count + 2 ^ 12 * e.type + 2 ^ 16 * e.flags + 2 ^ 22 * e.spare := by
  have := h.count
  have := h.type
  have := h.flags
  have := h.spare
  unfold Entry.props
  rw [BitVec.toNat_ofNat, Nat.mod_eq_of_lt]
  omega

theorem and_low (v : BitVec 32) (k : Nat) (m : BitVec 32) (hm : m.toNat = 2 ^ k - 1) : (v &&& m).toNat = v.toNat % 2 ^ k := by
  rw [BitVec.toNat_and, hm, Nat.and_two_pow_sub_one_eq_mod]

theorem props_count {e : Entry} (h : e.Ok) : (e.props &&& 0xFFF).toNat = e.count := by
  rw [and_low _ 12 _ rfl, props_toNat h]
  have := h.count
  omega

theorem props_type {e : Entry} (h : e.Ok) : ((e.props >>> 12) &&& 0xF).toNat = e.type := by
  rw [and_low _ 4 _ rfl, BitVec.toNat_ushiftRight, props_toNat h, Nat.shiftRight_eq_div_pow]
  have := h.count
  have := h.type
  omega

theorem props_flags {e : Entry} (h : e.Ok) : ((e.props >>> 16) &&& 0x3F).toNat = e.flags := by
  rw [and_low _ 6 _ rfl, BitVec.toNat_ushiftRight, props_toNat h, Nat.shiftRight_eq_div_pow]
  have := h.count
  have := h.type
  have := h.flags
  omega

theorem getLsbD_of_toNat (v : BitVec 32) (n : Nat) (h : v.toNat = n) (i : Nat) : v.getLsbD i = n.testBit i := by
  rw [← h]; rfl

/-! ## Texts and words -/

theorem unescape_spec (l : Bytes) : Unescapes l (unescape l) := by
  induction l using unescape.induct with
  | case1 => exact .nil
  | case2 r ih => rw [unescape]; exact .newline ih
  | case3 r ih => rw [unescape]; exact .tab ih
  | case4 c r h1 h2 ih =>
    rw [unescape]
    · refine .other ?_ ih
      intro hc d q hr
      subst hc hr
      refine ⟨fun h => ?_, fun h => ?_⟩
      · exact h1 q rfl (by rw [h])
      · exact h2 q rfl (by rw [h])
    · exact h1
    · exact h2

theorem wordsOf_enc (ws : List (BitVec 32)) : wordsOf ws.length (ws.map (encW 4)).flatten = ws.map some := by
  have hl : ∀ ws : List (BitVec 32), ((ws.map (encW 4)).flatten).length = 4 * ws.length := fun ws => floatMem_length ws
  have hd : ∀ (ws : List (BitVec 32)) (i : Nat) (h : i < ws.length),
      (((ws.map (encW 4)).flatten.drop (4 * i)).take 4) = encW 4 ws[i] := by
    intro ws
    induction ws with
    | nil => intro i h; simp at h
    | cons w ws ih =>
      intro i h
      cases i with
      | zero => simp
      | succ i =>
        have := ih i (by simpa using h)
        simp only [List.map_cons, List.flatten_cons, List.getElem_cons_succ]
        rw [List.drop_append, ← this, encW_length]
        have : (encW 4 w).drop (4 * (i + 1)) = [] := List.drop_eq_nil_of_le (by simp; omega)
        rw [this, List.nil_append]
        congr 2
  unfold wordsOf
  apply List.ext_getElem
  · simp
  · intro i h1 h2
    simp only [List.length_map, List.length_range] at h1
    simp only [List.getElem_map, List.getElem_range]
    rw [if_pos (by rw [hl]; omega), hd ws i h1, decW_encW 4 rfl]

/-! ## One symbol -/

theorem reads_name (e : Entry) (h : e.Ok) :
    Reads (({ } : LSym).loadName) e.nameBytes { sym := { name := e.shownName, generated := e.isGenerated } } := by
  unfold LSym.loadName Entry.nameBytes
  cases hn : e.name with
  | none =>
    have hb := (Reads.u32 0).bind (f := fun has => if has = 0 then (Pure.pure ({ } : LSym) : Rd LSym) else do
      let n ← Rd.line false
      return ({ } : LSym).setName n) (b2 := []) (b := { }) (Reads.pure _)
    have h1 : e.shownName = [] := by simp [Entry.shownName, hn]
    have h2 : e.isGenerated = false := by simp [Entry.isGenerated, hn]
    rw [h1, h2]
    simpa using hb
  | some n =>
    have hl := (Reads.lineLf n (h.name n hn)).bind_pure (f := fun n => ({ } : LSym).setName n)
    have hb := (Reads.u32 1).bind (f := fun has => if has = 0 then (Pure.pure ({ } : LSym) : Rd LSym) else do
      let n ← Rd.line false
      return ({ } : LSym).setName n) hl
    have h1 : ({ } : LSym).setName n = { sym := { name := e.shownName, generated := e.isGenerated } } := by
      by_cases hc : ∃ r, n = 255 :: r
      · obtain ⟨r, rfl⟩ := hc
        simp only [Entry.shownName, Entry.isGenerated, hn]
        rfl
      · have e1 : e.shownName = n := by
          unfold Entry.shownName
          rw [hn]
          split
          · rename_i h; cases h
          · rename_i r h; cases h; exact absurd ⟨_, rfl⟩ hc
          · rename_i h; cases h; rfl
        have e2 : e.isGenerated = false := by
          unfold Entry.isGenerated
          rw [hn]
          split
          · rename_i r h; cases h; exact absurd ⟨_, rfl⟩ hc
          · rfl
        rw [e1, e2]
        unfold LSym.setName
        split
        · rename_i r; exact absurd ⟨r, rfl⟩ hc
        · rfl
    rw [← h1]
    exact hb

theorem reads_props (s : LSym) (v p : BitVec 32) : Reads s.loadProps (encW 4 v ++ encW 4 p) (s.setProps v p) :=
  (Reads.u32 v).bind ((Reads.u32 p).bind_pure (f := fun p => s.setProps v p))

/-- What the location sets. -/
def LSym.setPlace (s : LSym) (fi ls lc cs cc : BitVec 32) : LSym :=
  { s with fileIndex := fi &&& 0x7FFFF, lineStart := ls &&& 0x7FFFF, lineCount := lc &&& 0x7FFFF,
           charStart := cs &&& 0xFFFFFF, charCount := cc &&& 0xFFFFFF }

theorem reads_place (s : LSym) (fi ls lc cs cc : BitVec 32) :
    Reads s.loadPlace (encW 4 fi ++ (encW 4 ls ++ (encW 4 lc ++ (encW 4 cs ++ encW 4 cc)))) (s.setPlace fi ls lc cs cc) :=
  (Reads.u32 fi).bind ((Reads.u32 ls).bind ((Reads.u32 lc).bind ((Reads.u32 cs).bind
    ((Reads.u32 cc).bind_pure (f := fun cc => s.setPlace fi ls lc cs cc)))))

/-- The symbol with the value from the file. -/
def valued (s : LSym) (e : Entry) : LSym :=
  match e.type, e.body with
  | 1, .words ws => { s with sym := { s.sym with value := .floats (ws.map some) } }
  | 2, .words ws => { s with sym := { s.sym with value := .ints (some (ws.map some)) } }
  | 3, .texts ls => { s with sym := { s.sym with value := .strs (ls.map unescape) } }
  | 4, .word w => { s with classOffset := w }
  | 5, .word w => { s with sym := { s.sym with value := if s.sym.isConst then s.sym.value else .ints (some [none]), address := w } }
  | 6, .word w => { s with sym := { s.sym with address := w } }
  | 7, .word w => { s with sym := { s.sym with value := .inst none, address := w } }
  | _, _ => s

theorem reads_texts (ls : List Bytes) (h : ∀ l ∈ ls, NoEol l) :
    Reads (Rd.times (do let l ← Rd.line false; return unescape l) ls.length) (ls.map (· ++ [10])).flatten (ls.map unescape) := by
  induction ls with
  | nil => exact Reads.pure []
  | cons l ls ih =>
    simp only [List.length_cons, Rd.times, List.map_cons, List.flatten_cons]
    refine ((Reads.lineLf l (h l (by simp))).bind_pure (f := unescape)).bind ?_
    exact (ih (fun b hb => h b (by simp [hb]))).bind_pure

theorem reads_value (s : LSym) (e : Entry) (h : e.Ok) (hm : e.member = false) (hc : s.sym.count.toNat = e.count)
    (ht : s.sym.type = DType.ofCode e.type) : Reads s.loadValue e.body.bytes (valued s e) := by
  have hb := h.body
  unfold Entry.BodyOk at hb
  rw [hm] at hb
  simp only [Bool.false_eq_true, if_false] at hb
  unfold LSym.loadValue
  rw [ht, hc]
  have hlt := h.type
  match hty : e.type with
  | 0 =>
    rw [hty] at hb
    simp only at hb
    simp only [valued, hty, hb, DType.ofCode, Body.bytes]
    exact Reads.pure s
  | 1 =>
    rw [hty] at hb
    obtain ⟨ws, hb, hl⟩ := hb
    simp only [valued, hty, hb, DType.ofCode, Body.bytes]
    have := (Reads.read (ws.map (encW 4)).flatten).bind_pure
      (f := fun bs => ({ s with sym := { s.sym with value := .floats (wordsOf e.count bs) } } : LSym))
    rw [show ((ws.map (encW 4)).flatten).length = e.count * 4 by rw [← hl, Nat.mul_comm]; exact floatMem_length ws] at this
    refine this.congr rfl ?_
    rw [← hl, wordsOf_enc]
  | 2 =>
    rw [hty] at hb
    obtain ⟨ws, hb, hl⟩ := hb
    simp only [valued, hty, hb, DType.ofCode, Body.bytes]
    have := (Reads.read (ws.map (encW 4)).flatten).bind_pure
      (f := fun bs => ({ s with sym := { s.sym with value := .ints (some (wordsOf e.count bs)) } } : LSym))
    rw [show ((ws.map (encW 4)).flatten).length = e.count * 4 by rw [← hl, Nat.mul_comm]; exact floatMem_length ws] at this
    refine this.congr rfl ?_
    rw [← hl, wordsOf_enc]
  | 3 =>
    rw [hty] at hb
    obtain ⟨ls, hb, hl, hn⟩ := hb
    simp only [valued, hty, hb, DType.ofCode, Body.bytes]
    rw [← hl]
    exact (reads_texts ls hn).bind_pure
  | 4 =>
    rw [hty] at hb
    obtain ⟨w, hb⟩ := hb
    simp only [valued, hty, hb, DType.ofCode, Body.bytes]
    exact (Reads.u32 w).bind_pure
  | 5 =>
    rw [hty] at hb
    obtain ⟨w, hb⟩ := hb
    simp only [valued, hty, hb, DType.ofCode, Body.bytes]
    exact (Reads.u32 w).bind_pure
  | 6 =>
    rw [hty] at hb
    obtain ⟨w, hb⟩ := hb
    simp only [valued, hty, hb, DType.ofCode, Body.bytes]
    exact (Reads.u32 w).bind_pure
  | 7 =>
    rw [hty] at hb
    obtain ⟨w, hb⟩ := hb
    simp only [valued, hty, hb, DType.ofCode, Body.bytes]
    exact (Reads.u32 w).bind_pure
  | n + 8 =>
    rw [hty] at hb
    simp only at hb
    simp only [valued, hty, hb, DType.ofCode, Body.bytes]
    exact Reads.pure s

theorem isSpace_iff (p : BitVec 32) :
    isSpace (p &&& 0xFF) = true ↔ p.toNat % 256 = 32 ∨ 9 ≤ p.toNat % 256 ∧ p.toNat % 256 ≤ 13 := by
  have h := and_low p 8 0xFF rfl
  unfold isSpace
  simp only [Bool.or_eq_true, beq_iff_eq, Bool.and_eq_true, decide_eq_true_eq]
  rw [← BitVec.toNat_inj, BitVec.le_def, BitVec.le_def, h]
  rfl

theorem reads_parent (s : LSym) (p : BitVec 32)
    (h : ¬ (s.sym.type = .string ∧ s.sym.isMember = false ∧ s.sym.isConst = true ∧ isSpace (p &&& 0xFF) = true)) :
    Reads s.loadParent (encW 4 p) { s with sym := { s.sym with parent := p } } := by
  unfold LSym.loadParent
  have := (Reads.u32 p).bind (b2 := []) (b := ({ s with sym := { s.sym with parent := p } } : LSym)) (f := fun p =>
    if s.sym.type = .string ∧ s.sym.isMember = false ∧ s.sym.isConst = true ∧ isSpace (p &&& 0xFF) = true then do
      let p ← searchParent
      return { s with sym := { s.sym with parent := p } }
    else return ({ s with sym := { s.sym with parent := p } } : LSym)) (by rw [if_neg h]; exact Reads.pure _)
  simpa using this

/-! What the properties leave alone. -/

section
variable (s : LSym) (v p : BitVec 32)

theorem setProps_count : (s.setProps v p).sym.count = p &&& 0xFFF := by
  unfold LSym.setProps; dsimp only; (repeat' split) <;> rfl
theorem setProps_type : (s.setProps v p).sym.type = DType.ofCode ((p >>> 12) &&& 0xF).toNat := by
  unfold LSym.setProps; dsimp only; (repeat' split) <;> rfl
theorem setProps_flags : (s.setProps v p).sym.flags = (p >>> 16) &&& 0x3F := by
  unfold LSym.setProps; dsimp only; (repeat' split) <;> rfl
theorem setProps_name : (s.setProps v p).sym.name = s.sym.name := by
  unfold LSym.setProps; dsimp only; (repeat' split) <;> rfl
theorem setProps_generated : (s.setProps v p).sym.generated = s.sym.generated := by
  unfold LSym.setProps; dsimp only; (repeat' split) <;> rfl
theorem setProps_value : (s.setProps v p).sym.value = s.sym.value := by
  unfold LSym.setProps; dsimp only; (repeat' split) <;> rfl

end

/-- The symbol before its value. -/
def begun (e : Entry) : LSym :=
  ((({ sym := { name := e.shownName, generated := e.isGenerated } } : LSym).setProps e.vary e.props).setPlace e.file e.line e.lines
    e.char e.chars)

/-- The symbol after loading. -/
def loaded (e : Entry) : LSym :=
  let s := if e.member then begun e else valued (begun e) e
  { s with sym := { s.sym with parent := e.parent } }

theorem begun_count {e : Entry} (h : e.Ok) : (begun e).sym.count.toNat = e.count := by
  show (LSym.setProps _ _ _).sym.count.toNat = _
  rw [setProps_count, props_count h]

theorem begun_type {e : Entry} (h : e.Ok) : (begun e).sym.type = DType.ofCode e.type := by
  show (LSym.setProps _ _ _).sym.type = _
  rw [setProps_type, props_type h]

theorem begun_flag {e : Entry} (h : e.Ok) (i : Nat) : (begun e).sym.flags.getLsbD i = e.flags.testBit i := by
  show (LSym.setProps _ _ _).sym.flags.getLsbD i = _
  rw [setProps_flags]
  exact getLsbD_of_toNat _ _ (props_flags h) i

theorem begun_member {e : Entry} (h : e.Ok) : (begun e).sym.isMember = e.member := begun_flag h 2

/-- A value is set without changing what identifies the symbol. -/
theorem valued_same (s : LSym) (e : Entry) : (valued s e).sym.type = s.sym.type ∧ (valued s e).sym.flags = s.sym.flags ∧
    (valued s e).sym.count = s.sym.count ∧ (valued s e).sym.name = s.sym.name ∧ (valued s e).sym.generated = s.sym.generated ∧
    (valued s e).fileIndex = s.fileIndex ∧ (valued s e).lineStart = s.lineStart ∧ (valued s e).lineCount = s.lineCount ∧
    (valued s e).charStart = s.charStart ∧ (valued s e).charCount = s.charCount ∧
    (valued s e).sym.memberOffset = s.sym.memberOffset ∧ (valued s e).sym.classSize = s.sym.classSize ∧
    (valued s e).sym.rtype = s.sym.rtype := by
  unfold valued
  split <;> simp

theorem reads_symbol {e : Entry} (h : e.Ok) (hs : ¬ e.Suspicious) : Reads (({ } : LSym).load) e.bytes (loaded e) := by
  unfold LSym.load Entry.bytes Entry.head
  simp only [List.append_assoc]
  refine (reads_name e h).bind ?_
  rw [← List.append_assoc]
  refine (reads_props _ e.vary e.props).bind ?_
  have hp := reads_place (({ sym := { name := e.shownName, generated := e.isGenerated } } : LSym).setProps e.vary e.props)
    e.file e.line e.lines e.char e.chars
  rw [show encW 4 e.file ++ (encW 4 e.line ++ (encW 4 e.lines ++ (encW 4 e.char ++ (encW 4 e.chars ++
      (e.body.bytes ++ encW 4 e.parent))))) = (encW 4 e.file ++ (encW 4 e.line ++ (encW 4 e.lines ++ (encW 4 e.char ++
      encW 4 e.chars)))) ++ (e.body.bytes ++ encW 4 e.parent) by simp only [List.append_assoc]]
  refine hp.bind ?_
  change Reads (do
    let s ← (if (begun e).sym.isMember then Pure.pure (begun e) else (begun e).loadValue)
    s.loadParent) _ _
  have hm := begun_member h
  by_cases hmem : e.member = true
  · have hb : e.body = .none := by
      have := h.body
      unfold Entry.BodyOk at this
      rwa [if_pos hmem] at this
    rw [hm, if_pos hmem, hb]
    unfold loaded
    rw [if_pos hmem]
    refine (Reads.pure _).bind ?_
    refine reads_parent _ _ ?_
    rintro ⟨-, h2, -⟩
    rw [hm, hmem] at h2
    cases h2
  · have hmem : e.member = false := by simpa using hmem
    rw [hm, hmem]
    unfold loaded
    rw [hmem]
    simp only [Bool.false_eq_true, if_false]
    refine (reads_value _ e h hmem (begun_count h) (begun_type h)).bind ?_
    refine reads_parent _ _ ?_
    obtain ⟨h1, h2, -⟩ := valued_same (begun e) e
    rintro ⟨a, b, c, d⟩
    refine hs ⟨?_, hmem, ?_, (isSpace_iff _).mp d⟩
    · rw [h1, begun_type h] at a
      have := h.type
      match hty : e.type with
      | 0 | 1 | 2 | 4 | 5 | 6 | 7 => rw [hty] at a; cases a
      | 3 => rfl
      | n + 8 => rw [hty] at a; cases a
    · unfold Sym.isConst at c
      rw [h2, begun_flag h] at c
      exact c

/-! ## What the accessors show -/

theorem begun_memberOffset {e : Entry} (h : e.Ok) (hm : e.member = true) : (begun e).sym.memberOffset = e.vary := by
  have h2 := begun_member h
  rw [hm] at h2
  unfold begun LSym.setPlace at h2 ⊢
  simp only [LSym.setProps] at h2 ⊢
  split
  · rfl
  · rename_i hn
    rw [if_neg hn] at h2
    exfalso
    apply hn
    split at h2
    · exact h2
    · split at h2
      · exact h2
      · exact h2

theorem notMember {e : Entry} (h : e.Ok) (hm : e.member = false) (s : Sym)
    (hf : s.flags = (e.props >>> 16) &&& 0x3F) : ¬ s.isMember = true := by
  unfold Sym.isMember
  rw [hf, getLsbD_of_toNat _ _ (props_flags h) 2]
  unfold Entry.member at hm
  simp [hm]

theorem begun_classSize {e : Entry} (h : e.Ok) (hm : e.member = false) (ht : e.type = 4) : (begun e).sym.classSize = e.vary := by
  unfold begun LSym.setPlace
  simp only [LSym.setProps]
  rw [if_neg (notMember h hm _ rfl), if_pos (by rw [props_type h, ht]; rfl)]

theorem begun_rtype {e : Entry} (h : e.Ok) (hm : e.member = false) (ht : e.type = 5) :
    (begun e).sym.rtype = DType.ofCode e.vary.toNat := by
  unfold begun LSym.setPlace
  simp only [LSym.setProps]
  rw [if_neg (notMember h hm _ rfl), if_neg (by rw [props_type h, ht]; decide), if_pos (by rw [props_type h, ht]; rfl)]

/-- The symbol in the table. -/
def placed (e : Entry) (i : Nat) : LSym := { loaded e with sym := { (loaded e).sym with index := BitVec.ofNat 32 i } }

theorem placed_shows {e : Entry} (h : e.Ok) (i : Nat) : Shows e i (placed e i) := by
  obtain ⟨v1, v2, v3, v4, v5, v6, v7, v8, v9, v10, v11, v12, v13⟩ := valued_same (begun e) e
  have key : ∀ {α} (f : LSym → α), f (valued (begun e) e) = f (begun e) →
      f (if e.member then begun e else valued (begun e) e) = f (begun e) := by
    intro α f hf
    split
    · rfl
    · exact hf
  have ktype : (placed e i).sym.type = DType.ofCode e.type := by
    show (if e.member then begun e else valued (begun e) e).sym.type = _
    rw [key (fun s => s.sym.type) v1, begun_type h]
  have kflags : (placed e i).sym.flags = (begun e).sym.flags := key (fun s => s.sym.flags) v2
  have kcount : (placed e i).sym.count.toNat = e.count := by
    show (if e.member then begun e else valued (begun e) e).sym.count.toNat = _
    rw [key (fun s => s.sym.count) v3, begun_count h]
  have hflag : ∀ k, (placed e i).sym.flags.getLsbD k = e.flags.testBit k := fun k => by rw [kflags, begun_flag h]
  have hbig : ∀ k, 6 ≤ k → e.flags.testBit k = false := fun k hk =>
    Nat.testBit_lt_two_pow (Nat.lt_of_lt_of_le h.flags (Nat.pow_le_pow_right (by decide) hk))
  have kval : e.member = false → (placed e i).sym.value = (valued (begun e) e).sym.value ∧
      (placed e i).sym.address = (valued (begun e) e).sym.address ∧ (placed e i).classOffset = (valued (begun e) e).classOffset := by
    intro hm
    unfold placed loaded
    rw [hm]
    exact ⟨rfl, rfl, rfl⟩
  have kmem : e.member = false → (placed e i).sym.isMember = false := fun hm => (hflag 2).trans hm
  have hbody := h.body
  refine ⟨?_, ?_, kcount, ktype, hflag 0, hflag 1, hflag 2, hflag 3, (hflag 6).trans (hbig 6 (by decide)),
    (hflag 7).trans (hbig 7 (by decide)), rfl, rfl, ?_, ?_, ?_, ?_, ?_, ?_, ?_, ?_, ?_, ?_, ?_, ?_, ?_, ?_⟩
  · show (if e.member then begun e else valued (begun e) e).sym.name = _
    rw [key (fun s => s.sym.name) v4]
    exact setProps_name _ _ _
  · show (if e.member then begun e else valued (begun e) e).sym.generated = _
    rw [key (fun s => s.sym.generated) v5]
    exact setProps_generated _ _ _
  · show (if e.member then begun e else valued (begun e) e).fileIndex.toNat = _
    rw [key (fun s => s.fileIndex) v6]
    exact and_low _ 19 _ rfl
  · show (if e.member then begun e else valued (begun e) e).lineStart.toNat = _
    rw [key (fun s => s.lineStart) v7]
    exact and_low _ 19 _ rfl
  · show (if e.member then begun e else valued (begun e) e).lineCount.toNat = _
    rw [key (fun s => s.lineCount) v8]
    exact and_low _ 19 _ rfl
  · show (if e.member then begun e else valued (begun e) e).charStart.toNat = _
    rw [key (fun s => s.charStart) v9]
    exact and_low _ 24 _ rfl
  · show (if e.member then begun e else valued (begun e) e).charCount.toNat = _
    rw [key (fun s => s.charCount) v10]
    exact and_low _ 24 _ rfl
  · intro hm ht ws hb k w hw
    have hk : k < e.count := by
      unfold Entry.BodyOk at hbody
      rw [hm, ht] at hbody
      obtain ⟨ws', hb', hl⟩ := hbody
      rw [hb] at hb'
      cases hb'
      rw [← hl]
      exact (List.getElem?_eq_some_iff.mp hw).1
    unfold Sym.getInt
    rw [ktype, ht, if_neg (by decide), kcount, if_neg (by omega), kmem hm, (kval hm).1]
    simp only [valued, ht, hb, Bool.false_eq_true, if_false, List.getElem?_map, hw, Option.map_some]
  · intro hm ht ws hb k w hw
    have hk : k < e.count := by
      unfold Entry.BodyOk at hbody
      rw [hm, ht] at hbody
      obtain ⟨ws', hb', hl⟩ := hbody
      rw [hb] at hb'
      cases hb'
      rw [← hl]
      exact (List.getElem?_eq_some_iff.mp hw).1
    unfold Sym.getFloat
    rw [ktype, ht, if_neg (by decide), kcount, if_neg (by omega), kmem hm, (kval hm).1]
    simp only [valued, ht, hb, Bool.false_eq_true, if_false, List.getElem?_map, hw, Option.map_some]
  · intro hm ht ls hb k l hl
    have hk : k < e.count := by
      unfold Entry.BodyOk at hbody
      rw [hm, ht] at hbody
      obtain ⟨ls', hb', hc, -⟩ := hbody
      rw [hb] at hb'
      cases hb'
      rw [← hc]
      exact (List.getElem?_eq_some_iff.mp hl).1
    refine ⟨unescape l, unescape_spec l, ?_⟩
    unfold Sym.getString
    rw [ktype, ht, if_neg (by decide), kcount, if_neg (by omega), kmem hm, (kval hm).1]
    simp only [valued, ht, hb, Bool.false_eq_true, if_false, List.getElem?_map, hl, Option.map_some]
  · intro hm ht w hb
    rw [(kval hm).2.1]
    rcases ht with ht | ht | ht <;> simp only [valued, ht, hb]
  · intro hm ht
    unfold Entry.BodyOk at hbody
    rw [hm, ht] at hbody
    obtain ⟨w, hb⟩ := hbody
    unfold Sym.getInstance
    rw [ktype, ht, if_neg (by decide), (kval hm).1]
    simp only [valued, ht, hb]
  · intro hm ht w hb
    rw [(kval hm).2.2]
    simp only [valued, ht, hb]
  · intro hm
    show (if e.member then begun e else valued (begun e) e).sym.memberOffset = _
    rw [key (fun s => s.sym.memberOffset) v11, begun_memberOffset h hm]
  · intro hm ht
    show (if e.member then begun e else valued (begun e) e).sym.classSize = _
    rw [key (fun s => s.sym.classSize) v12, begun_classSize h hm ht]
  · intro hm ht
    show (if e.member then begun e else valued (begun e) e).sym.rtype = _
    rw [key (fun s => s.sym.rtype) v13, begun_rtype h hm ht]

/-! ## The table -/

theorem lastIndex_append (p : Sym → Bool) (l : List Sym) (x : Sym) :
    lastIndex p (l ++ [x]) = if p x then some l.length else lastIndex p l := by
  induction l with
  | nil => simp [lastIndex]
  | cons s l ih =>
    simp only [List.cons_append, lastIndex, ih]
    by_cases hx : p x = true
    · rw [if_pos hx, if_pos hx]
      rfl
    · rw [if_neg hx, if_neg hx]

/-- What the maps of a freshly loaded script know. -/
structure Script.Inv (sc : Script) : Prop where
  name : ∀ n, assoc n sc.byName = lastIndex (fun s => s.name == n) (sc.syms.map LSym.sym)
  address : ∀ a, assoc a sc.byAddress = lastIndex (fun s => hasCode s && s.address == a) (sc.syms.map LSym.sym)
  index : ∀ i s, sc.syms[i]? = some s → s.sym.index = BitVec.ofNat 32 i

theorem Script.Inv.empty (v : BitVec 8) : ({ version := v } : Script).Inv :=
  ⟨fun _ => rfl, fun _ => rfl, fun i s h => by simp at h⟩

theorem Script.Inv.enter {sc : Script} (h : sc.Inv) (s : LSym) : (sc.enter sc.syms.length s).Inv := by
  refine ⟨?_, ?_, ?_⟩
  · intro n
    simp only [Script.enter, List.map_append, List.map_cons, List.map_nil, lastIndex_append, assoc, List.length_map, h.name n]
    by_cases hn : s.sym.name = n
    · simp [hn]
    · simp [hn]
  · intro a
    simp only [Script.enter, List.map_append, List.map_cons, List.map_nil, lastIndex_append, List.length_map]
    by_cases hc : hasCode { s.sym with index := BitVec.ofNat 32 sc.syms.length } = true
    · rw [if_pos hc, hc]
      simp only [assoc, h.address a, Bool.true_and, beq_iff_eq]
    · have hc' : hasCode { s.sym with index := BitVec.ofNat 32 sc.syms.length } = false := by simpa using hc
      rw [if_neg hc, hc', h.address a]
      simp
  · intro i t ht
    simp only [Script.enter] at ht
    rcases Nat.lt_trichotomy i sc.syms.length with hi | hi | hi
    · rw [List.getElem?_append_left hi] at ht
      exact h.index i t ht
    · subst hi
      simp at ht
      rw [← ht]
    · rw [List.getElem?_append_right (by omega)] at ht
      have : i - sc.syms.length = (i - sc.syms.length - 1) + 1 := by omega
      rw [this] at ht
      simp at ht

theorem Script.enter_length (sc : Script) (s : LSym) (i : Nat) : (sc.enter i s).syms.length = sc.syms.length + 1 := by
  simp [Script.enter]

theorem loadSyms_inv : ∀ (olds : List LSym) (sc : Script) (h : sc.Inv) (st : Rs) (sc' : Script) (st' : Rs),
    sc.loadSyms sc.syms.length olds st = .ok (sc', st') → sc'.Inv ∧ sc'.syms.length = sc.syms.length + olds.length := by
  intro olds
  induction olds with
  | nil =>
    intro sc h st sc' st' hl
    cases hl
    exact ⟨h, rfl⟩
  | cons old olds ih =>
    intro sc h st sc' st' hl
    simp only [Script.loadSyms, Rd.bind_def] at hl
    split at hl
    · rename_i s st1 hs
      have := ih (sc.enter sc.syms.length s) (h.enter s) st1 sc' st' (by rw [Script.enter_length]; exact hl)
      rw [Script.enter_length] at this
      refine ⟨this.1, ?_⟩
      rw [this.2, List.length_cons]
      omega
    · cases hl

/-- The text does not matter for the table. -/
theorem Script.Inv.text {sc : Script} (h : sc.Inv) (t : Option Bytes) : ({ sc with text := t } : Script).Inv :=
  ⟨h.name, h.address, h.index⟩

theorem load_inv {st st' : Rs} {sc : Script} (h : ({ } : Script).load st = .ok (sc, st')) : sc.Inv ∧ sc.syms.length < 2 ^ 32 := by
  simp only [Script.load, Rd.bind_def] at h
  split at h
  · split at h
    · rename_i n st2 hn
      split at h
      · split at h
        · rename_i sc1 st4 hs
          have := loadSyms_inv (resized [] n.toNat) { version := _ } (Script.Inv.empty _) _ _ _ hs
          split at h
          · split at h
            · cases h
              refine ⟨this.1.text _, ?_⟩
              have h2 := this.2
              simp only [resized, List.take_nil, List.nil_append, List.length_replicate, List.length_nil] at h2
              show sc1.syms.length < _
              rw [h2]
              have := n.isLt
              omega
            · cases h
          · cases h
        · cases h
      · cases h
    · cases h
  · cases h

/-! ## The whole file -/

/-- The table for the entries. -/
def entered (es : List Entry) (sc : Script) : Script :=
  match es with
  | [] => sc
  | e :: es => entered es (sc.enter sc.syms.length (loaded e))

theorem reads_syms (es : List Entry) (h : ∀ e ∈ es, e.Ok ∧ ¬ e.Suspicious) : ∀ sc : Script,
    Reads (sc.loadSyms sc.syms.length (List.replicate es.length { : LSym })) (es.map Entry.bytes).flatten (entered es sc) := by
  induction es with
  | nil => intro sc; exact Reads.pure sc
  | cons e es ih =>
    intro sc
    simp only [List.length_cons, List.replicate_succ, Script.loadSyms, List.map_cons, List.flatten_cons, entered]
    have he := h e (by simp)
    refine (reads_symbol he.1 he.2).bind ?_
    have := ih (fun e' h' => h e' (by simp [h'])) (sc.enter sc.syms.length (loaded e))
    rwa [Script.enter_length] at this

theorem entered_syms (es : List Entry) : ∀ sc : Script, (entered es sc).version = sc.version ∧
    ∀ i, (entered es sc).syms[i]? = if i < sc.syms.length then sc.syms[i]? else (es[i - sc.syms.length]?).map (placed · i) := by
  induction es with
  | nil =>
    intro sc
    refine ⟨rfl, fun i => ?_⟩
    split
    · rfl
    · simp [entered]; omega
  | cons e es ih =>
    intro sc
    obtain ⟨h1, h2⟩ := ih (sc.enter sc.syms.length (loaded e))
    refine ⟨h1, fun i => ?_⟩
    rw [entered, h2 i, Script.enter_length]
    rcases Nat.lt_trichotomy i sc.syms.length with hi | hi | hi
    · rw [if_pos (by omega), if_pos hi]
      simp only [Script.enter]
      rw [List.getElem?_append_left hi]
    · subst hi
      rw [if_pos (by omega), if_neg (by omega)]
      simp [Script.enter, placed]
    · rw [if_neg (by omega), if_neg (by omega)]
      rw [show i - sc.syms.length = (i - (sc.syms.length + 1)) + 1 by omega, List.getElem?_cons_succ]

end Verif.Daedalus
