import Verif.Model.Materials
import Verif.Lemmas.ObjAny
import Verif.Props.ArchiveAscii

/-! # Lemmas: loading an object whose `save` has written another type than `load` reads -/

namespace Verif.Obj

open Verif.Ar

/-- The same as a document. -/
def flatDoc : List Field → Doc
  | [] => .nil
  | .val n v :: fs => .val n v (flatDoc fs)
  | .ptr _ _ :: fs => flatDoc fs

/-- No pointers. -/
def Flat (fs : List Field) : Prop := ∀ f ∈ fs, ∃ n v, f = .val n v

theorem flatDoc_calls (fs : List Field) : (flatDoc fs).calls = flatCalls fs := by
  induction fs with
  | nil => rfl
  | cons f fs ih =>
    cases f with
    | val n v => simp only [flatDoc, Doc.calls, ih, flatCalls, List.flatMap_cons]; rfl
    | ptr n p => simp only [flatDoc, ih, flatCalls, List.flatMap_cons]; rfl

theorem flatDoc_append (fs gs : List Field) : flatDoc (fs ++ gs) = (flatDoc fs).app (flatDoc gs) := by
  induction fs with
  | nil => rfl
  | cons f fs ih =>
    cases f with
    | val n v => simp only [List.cons_append, flatDoc, ih, Doc.app]
    | ptr n p => simp only [List.cons_append, flatDoc, ih]

theorem flatDoc_numbered (fs : List Field) (i : BitVec 32) : (flatDoc fs).Numbered i := by
  induction fs with
  | nil => trivial
  | cons f fs ih => cases f <;> exact ih

theorem flatDoc_all {pv po} (fs : List Field) (h : ∀ n v, Field.val n v ∈ fs → pv n v) : (flatDoc fs).All pv po := by
  induction fs with
  | nil => trivial
  | cons f fs ih =>
    have ih := ih fun n v hv => h n v (List.mem_cons_of_mem _ hv)
    cases f with
    | val n v => exact ⟨h n v List.mem_cons_self, ih⟩
    | ptr n p => exact ih

theorem readFields_wrong_aux {σ} {r : Reader σ} (M : Sim r) (ptr : σ → GRd → Except Fail (Option Nat × σ × GRd))
    (S : List Seen → Option Want) (n : Bytes) (v : Val) (rest : Doc) (L : List Doc) (k : Kind) (e : Fail)
    (hbad : ∀ s, M.R (.val n v rest :: L) s → r.val k s = .error e) (g : GRd) (todo : List Field) :
    ∀ (done : List Field) (fuel : Nat) (s : σ), todo.length < fuel → Flat todo →
      (∀ i, i < todo.length → S ((done ++ todo.take i).map Field.seen) = todo[i]?.map Field.want) →
      S ((done ++ todo).map Field.seen) = some (.val k) → Flat done → M.R ((flatDoc todo).app (.val n v rest) :: L) s →
      readFields r ptr S fuel (done.map (Field.got id)) s g = .error e := by
  have hseen : ∀ l : List Field, (l.map (Field.got id)).map Got.seen = l.map Field.seen := by
    intro l
    rw [List.map_map]
    apply List.map_congr_left
    intro f _
    cases f with
    | val n v => rfl
    | ptr n p => cases p <;> rfl
  induction todo with
  | nil =>
    intro done fuel s hf _ _ hk _ h
    obtain ⟨m, rfl⟩ : ∃ m, fuel = m + 1 := ⟨fuel - 1, by simp at hf; omega⟩
    rw [List.append_nil] at hk
    rw [readFields, hseen, hk]
    dsimp only
    rw [hbad s h]
    rfl
  | cons f todo ih =>
    intro done fuel s hf hflat hS hk hd h
    obtain ⟨m, rfl⟩ : ∃ m, fuel = m + 1 := ⟨fuel - 1, by simp at hf; omega⟩
    obtain ⟨a, b, rfl⟩ := hflat f List.mem_cons_self
    obtain ⟨s1, e1, h1⟩ := M.val _ _ _ _ _ h
    have h0 := hS 0 (by simp)
    rw [List.take_zero, List.append_nil] at h0
    rw [readFields, hseen, h0]
    simp only [List.getElem?_cons_zero, Option.map_some, Field.want, e1]
    have := ih (done ++ [.val a b]) m s1 (by simpa using hf) (fun f hf => hflat f (List.mem_cons_of_mem _ hf)) (by
        intro i hi
        have := hS (i + 1) (by simpa using hi)
        rw [List.append_assoc]
        exact this) (by rw [List.append_assoc]; exact hk) (by
        intro f hf
        rcases List.mem_append.1 hf with hf | hf
        · exact hd f hf
        · exact ⟨a, b, by simpa using hf⟩) h1
    rw [List.map_append] at this
    exact this

/-- Reading fails at the entry that was written as another type. -/
theorem readFields_wrong {σ} {r : Reader σ} (M : Sim r) (ptr : σ → GRd → Except Fail (Option Nat × σ × GRd))
    (S : List Seen → Option Want) (pre : List Field) (n : Bytes) (v : Val) (rest : List Field) (k : Kind) (e : Fail)
    (hbad : ∀ s, M.R [.val n v (flatDoc rest)] s → r.val k s = .error e) (g : GRd) (fuel : Nat) (s : σ) (hf : pre.length < fuel)
    (hflat : Flat pre) (f' : Field) (rest' : List Field) (hS : Follows S (pre ++ f' :: rest')) (hk : f'.want = .val k)
    (h : M.R [flatDoc (pre ++ .val n v :: rest)] s) : readFields r ptr S fuel [] s g = .error e := by
  refine readFields_wrong_aux M ptr S n v (flatDoc rest) [] k e hbad g pre [] fuel s hf hflat ?_ ?_ (by intro f hf; cases hf) ?_
  · intro i hi
    have := hS i (by rw [List.length_append]; omega)
    rw [List.take_append_of_le_length (by omega), List.getElem?_append_left hi] at this
    exact this
  · have := hS pre.length (by simp)
    rw [List.take_left, List.getElem?_append_right (Nat.le_refl _), Nat.sub_self] at this
    rw [List.nil_append, this, List.getElem?_cons_zero, Option.map_some, hk]
  · rw [flatDoc_append] at h
    exact h

/-- A truth value is not read as an enumeration: BINSAFE. -/
theorem bs_bool_enum (data post : Bytes) (n : Bytes) (b : Bool) (rest : Doc) (s : Rs)
    (h : (Bs.sim data post).R [.val n (.bool b) rest] s) : Bs.reader.val .enum s = .error (.throw .parser) := by
  obtain ⟨d, pos⟩ := s
  obtain ⟨rfl, _, hp, bs, hd, hl⟩ := h
  obtain ⟨ks, r, rfl, _⟩ := Bs.levels_cons hl
  simp only at hp hd
  simp only [Bs.enc, Bs.head, Bs.tag, List.append_assoc] at hd
  have h1 := (Reads.u8 Bs.tHASH).atPos d _ _ hp hd
  have h2 := (Reads.seekCur (encW 4 (Bs.keyFor ks n)) 4 (by simp)).atPos d _ _ h1.2.1 h1.2.2
  have h3 := (Reads.u8 Bs.tBOOL).atPos d _ _ h2.2.1 h2.2.2
  refine Rd.bind_err ?_
  unfold Bs.ensureMeta
  rw [Rd.bind_ok h1.1]
  simp only [bne_self_eq_false, Bool.false_eq_true, if_false]
  rw [Rd.bind_ok (p := Rd.seek 4 .cur) h2.1, Rd.bind_ok h3.1]
  rfl

/-- A truth value is not read as an enumeration: ASCII. -/
theorem asc_bool_enum (junk data post : Bytes) (hpost : Solid post) (n : Bytes) (hn : NoEol n) (hn2 : (61 : Byte) ∉ n) (b : Bool)
    (rest : Doc) (s : Rs) (h : (Asc.sim junk data post hpost).R [.val n (.bool b) rest] s) :
    Asc.reader.val .enum s = .error (.throw .parser) := by
  obtain ⟨d, pos⟩ := s
  obtain ⟨rfl, _, hp, hb⟩ := h
  rw [Asc.pending_cons junk _ [] (Asc.entryLine n b!"bool" (Asc.valText junk (.bool b)).2) rest rfl] at hb
  obtain ⟨ws, b', _, hd, _⟩ := hb
  simp only at hp hd
  have := Verif.Props.readEntry_any 0 n b!"bool" b!"enum" ((Asc.valText junk (.bool b)).2 ++ (10 :: (ws ++ b'))) hn hn2 (by decide)
    (by decide) d pos hp (by
      rw [hd]
      simp [Asc.entryLine])
  rw [if_neg (by decide)] at this
  have key : Asc.readEntry b!"enum" ⟨d, pos⟩ = .error (.throw .parser) := by
    cases he : Asc.readEntry b!"enum" ⟨d, pos⟩ with
    | error e => rw [he] at this; cases this; rfl
    | ok p => rw [he] at this; cases this
  exact Rd.bind_err key

/-! ### The text of numbers has no line break -/

/-- Characters of numbers. -/
def NumChar (c : Byte) : Prop := c ≠ 0 ∧ c ≠ 10 ∧ c ≠ 13

theorem numChar_digit (c : Byte) (h : isDigit c = true) : NumChar c := by
  refine ⟨?_, ?_, ?_⟩ <;> (rintro rfl; revert h; decide)

theorem numChar_dec (n : Nat) : ∀ c ∈ dec n, NumChar c := fun c hc => numChar_digit c (dec_digits n c hc)

theorem numChar_pointed (i f : Bytes) (hi : ∀ c ∈ i, NumChar c) (hf : ∀ c ∈ f, NumChar c) : ∀ c ∈ FText.pointed i f, NumChar c := by
  have hz : ∀ c ∈ FText.noZeros f, NumChar c := by
    intro c hc
    unfold FText.noZeros at hc
    exact hf c (List.mem_reverse.1 ((List.dropWhile_suffix _).subset (List.mem_reverse.1 hc)))
  intro c hc
  unfold FText.pointed at hc
  split at hc
  · exact hi c hc
  · rcases List.mem_append.1 hc with h | h
    · exact hi c h
    · rcases List.mem_cons.1 h with rfl | h
      · exact ⟨by decide, by decide, by decide⟩
      · exact hz c h

theorem numChar_expText (x : Nat) : ∀ c ∈ FText.expText x, NumChar c := by
  have two : ∀ n, ∀ c ∈ (if n < 10 then 48 :: dec n else dec n), NumChar c := by
    intro n c hc
    split at hc
    · rcases List.mem_cons.1 hc with rfl | h
      · exact ⟨by decide, by decide, by decide⟩
      · exact numChar_dec _ c h
    · exact numChar_dec _ c hc
  have pre : ∀ (s : Bytes) (n : Nat), (∀ c ∈ s, NumChar c) → ∀ c ∈ s ++ (if n < 10 then 48 :: dec n else dec n), NumChar c := by
    intro s n hs c hc
    rcases List.mem_append.1 hc with h | h
    · exact hs c h
    · exact two n c h
  have h1 : ∀ c ∈ b!"e-", NumChar c := by unfold NumChar; decide
  have h2 : ∀ c ∈ b!"e+", NumChar c := by unfold NumChar; decide
  intro c hc
  unfold FText.expText at hc
  dsimp only at hc
  by_cases hx : x < 45
  · rw [if_pos hx] at hc; exact pre _ _ h1 c hc
  · rw [if_neg hx] at hc; exact pre _ _ h2 c hc

theorem numChar_body (P d x : Nat) : ∀ c ∈ FText.body P d x, NumChar c := by
  intro c hc
  unfold FText.body at hc
  have ht : ∀ k, ∀ c ∈ (dec d).take k, NumChar c := fun k c hc => numChar_dec d c (List.mem_of_mem_take hc)
  have hd : ∀ k, ∀ c ∈ (dec d).drop k, NumChar c := fun k c hc => numChar_dec d c (List.mem_of_mem_drop hc)
  split at hc
  · rcases List.mem_append.1 hc with h | h
    · exact numChar_pointed _ _ (ht _) (hd _) c h
    · exact numChar_expText _ c h
  · split at hc
    · exact numChar_pointed _ _ (ht _) (hd _) c hc
    · refine numChar_pointed _ _ ?_ ?_ c hc
      · unfold NumChar; decide
      · intro c hc
        rcases List.mem_append.1 hc with h | h
        · rw [List.eq_of_mem_replicate h]; exact ⟨by decide, by decide, by decide⟩
        · exact numChar_dec d c h

theorem numChar_printG (P : Nat) (v : F32) : ∀ c ∈ FText.printG P v, NumChar c := by
  intro c hc
  unfold FText.printG at hc
  rcases List.mem_append.1 hc with h | h
  · split at h
    · clear hc; revert c; unfold NumChar; decide
    · cases h
  · split at h
    · clear hc; revert c; unfold NumChar; decide
    · split at h
      · exact numChar_body _ _ _ c h
      · split at h
        · clear hc; revert c; unfold NumChar; decide
        · clear hc; revert c; unfold NumChar; decide

theorem vec2Text_noEol (v : Vec2) : NoEol (vec2Text v) := by
  rw [noEol_iff]
  intro c hc
  have key : NumChar c := by
    unfold vec2Text at hc
    rcases List.mem_append.1 hc with h | h
    · exact numChar_printG _ _ c h
    · rcases List.mem_cons.1 h with rfl | h
      · exact ⟨by decide, by decide, by decide⟩
      · exact numChar_printG _ _ c h
  obtain ⟨h1, h2, h3⟩ := key
  unfold Rd.isEol
  simp [h1, h2, h3]

/-! ### Objects without pointers in BINARY archives -/

theorem writeFields_flat (ptr : Bytes → Option Nat → GWr → Except Fail (List Call × GWr)) (fs : List Field) (h : Flat fs) (g : GWr) :
    writeFields ptr fs g = .ok (flatCalls fs, g) := by
  induction fs with
  | nil => rfl
  | cons f fs ih =>
    obtain ⟨n, v, rfl⟩ := h f List.mem_cons_self
    rw [writeFields, ih fun f hf => h f (List.mem_cons_of_mem _ hf)]
    rfl

/-- What `load` gets in a BINARY archive is what `save` has written. -/
theorem flat_binary (fs : List Field) (h : Flat fs) (hv : ∀ n v, Field.val n v ∈ fs → Bin.OkVal v) (S : Schema)
    (top : List Seen → Option Want) (htop : Follows top fs) (w : Bin.Wr) (hw : w.ws.pos ≤ w.ws.data.length) (post : Bytes)
    (tail : List Nat) :
    ∃ w', Bin.calls w (flatCalls fs) = some w' ∧
      (w'.ws.pos - w.ws.pos < 2 ^ 32 →
        ∃ N s', ∀ f1 ≥ N, ∀ f2 ≥ N,
            (readFields Bin.reader (readPtr Bin.reader S f1) top f2 [] ⟨⟨w'.ws.data ++ post, w.ws.pos⟩, tail⟩ ⟨[], []⟩).map (·.1) =
              .ok (fs.map (Field.got id)) ∧
            (readFields Bin.reader (readPtr Bin.reader S f1) top f2 [] ⟨⟨w'.ws.data ++ post, w.ws.pos⟩, tail⟩ ⟨[], []⟩).map (·.2.1) =
              .ok s') := by
  obtain ⟨cs, g, w', h1, h2, h3⟩ := bin_graph (fun _ => none) fs [] S top
    { finite := by intro a o h; cases h
      small := by simp
      rootsIn := by
        intro n a hm
        obtain ⟨n', v, hf⟩ := h _ hm
        cases hf
      closed := by intro a o h; cases h
      types := by intro a o h; cases h
      loads := by intro a o h; cases h
      rootsOk := by
        intro f hf
        obtain ⟨n, v, rfl⟩ := h f hf
        exact hv n v hf
      fieldsOk := by intro a o h; cases h } htop w hw post tail
  rw [writeFields_flat _ fs h] at h1
  cases h1
  refine ⟨w', h2, fun hs => ?_⟩
  obtain ⟨N, s', heap, cache, φ, hN, _⟩ := h3 hs
  refine ⟨N, s', fun f1 hf1 f2 hf2 => ?_⟩
  rw [hN f1 hf1 f2 hf2]
  refine ⟨?_, rfl⟩
  show Except.ok (fs.map (Field.got φ)) = .ok (fs.map (Field.got id))
  congr 1
  apply List.map_congr_left
  intro f hf
  obtain ⟨n, v, rfl⟩ := h f hf
  rfl

end Verif.Obj
