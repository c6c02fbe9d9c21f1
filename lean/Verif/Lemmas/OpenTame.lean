import Verif.Lemmas.ArchiveTame
import Verif.Lemmas.Perils
import Verif.Model.Materials

/-! # Opening archives; the materials of meshes -/

namespace Verif

open Verif.Ar Verif.Obj

/-- `Runs` for one file. -/
def RunsAt {α} (data : Bytes) (A : Fail → Prop) (Q : α → Prop) (p : Rd α) : Prop := ∀ pos, pos ≤ data.length →
  (∃ a pos', p ⟨data, pos⟩ = .ok (a, ⟨data, pos'⟩) ∧ pos ≤ pos' ∧ pos' ≤ data.length ∧ Q a) ∨ ∃ e, p ⟨data, pos⟩ = .error e ∧ A e

namespace RunsAt

variable {α β : Type} {data : Bytes} {A : Fail → Prop}

theorem of_fwd {T} {p : Rd α} (hl : data.length < 2 ^ 32) (h : Fwd (.all T) p) (hA : ∀ x, A (.throw x)) : RunsAt data A (fun _ => True) p := by
  intro pos hp
  rcases h data pos ⟨hl, trivial⟩ hp with ⟨a, pos', e, b, l⟩ | ⟨_, e, he⟩
  · exact .inl ⟨a, pos', e, b, l, trivial⟩
  · exact .inr ⟨_, he, hA _⟩

theorem bind {p : Rd α} {f : α → Rd β} {Q : α → Prop} {Q' : β → Prop} (hp : RunsAt data A Q p) (hf : ∀ a, Q a → RunsAt data A Q' (f a)) :
    RunsAt data A Q' (p >>= f) := by
  intro pos hpos
  rcases hp pos hpos with ⟨a, pos1, e1, b1, l1, q1⟩ | ⟨e, he, ha⟩
  · rw [Rd.bind_ok e1]
    rcases hf a q1 pos1 l1 with ⟨b, pos2, e2, b2, l2, q2⟩ | h
    · exact .inl ⟨b, pos2, e2, by omega, l2, q2⟩
    · exact .inr h
  · rw [Rd.bind_err he]
    exact .inr ⟨e, rfl, ha⟩

theorem pure {Q : α → Prop} {a : α} (h : Q a) : RunsAt data A Q (Pure.pure a : Rd α) :=
  fun pos hp => .inl ⟨a, pos, rfl, Nat.le_refl _, hp, h⟩

theorem fail {Q : α → Prop} {e : Fail} (h : A e) : RunsAt data A Q (Rd.fail e) := fun _ _ => .inr ⟨_, rfl, h⟩

theorem line (skip : Bool) (hl : data.length < 2 ^ 32) : RunsAt data A (fun a => a <:+: data) (Rd.line skip) := fun pos hp => by
  obtain ⟨a, p', e, b, l, h⟩ := line_runs skip data pos hl hp
  exact .inl ⟨a, p', e, b, l, h⟩

end RunsAt

namespace Ar

/-- What may go wrong when an archive is opened: exceptions; for BINSAFE also an index that is outside of the table. -/
def OpenWrong (data : Bytes) (e : Fail) : Prop := (∃ x, e = .throw x) ∨ e = .ub ∧ b!"BIN_SAFE" <:+: data

/-- The name of the format is in the file. -/
def FmtIn (data : Bytes) : Fmt → Prop
  | .ascii => b!"ASCII" <:+: data
  | .binsafe => b!"BIN_SAFE" <:+: data
  | .binary => True

theorem stoi_fwd (t : Bytes) : Fwd (.all True) (Ar.stoi t) := by
  unfold Ar.stoi
  split
  · exact Fwd.throw _
  · split
    · exact .pure _
    · exact Fwd.throw _

theorem fmtIn (data fmt : Bytes) (h : fmt <:+: data) :
    FmtIn data (if fmt == b!"ASCII" then Fmt.ascii else if fmt == b!"BINARY" then .binary else if fmt == b!"BIN_SAFE" then .binsafe else .binary) := by
  split
  · rename_i he
    rw [eq_of_beq he] at h
    exact h
  split
  · trivial
  split
  · rename_i he
    rw [eq_of_beq he] at h
    exact h
  · trivial

theorem loadHeader_runs {data : Bytes} (hl : data.length < 2 ^ 32) : RunsAt data (OpenWrong data) (fun h => FmtIn data h.format) loadHeader := by
  have ht : ∀ x, OpenWrong data (.throw x) := fun x => .inl ⟨x, rfl⟩
  have hs : ∀ t, RunsAt data (OpenWrong data) (fun _ => True) (Ar.stoi t) := fun t => .of_fwd hl (stoi_fwd t) ht
  have hline : RunsAt data (OpenWrong data) (fun a => a <:+: data) (Rd.line true) := .line _ hl
  unfold loadHeader
  refine hline.bind fun _ _ => ?_
  split
  · exact .fail (ht _)
  refine hline.bind fun _ _ => ?_
  split
  · exact .fail (ht _)
  refine (hs _).bind fun _ _ => ?_
  split
  · exact .fail (ht _)
  refine hline.bind fun _ _ => hline.bind fun fmt hfmt => hline.bind fun _ _ => ?_
  split
  · exact .fail (ht _)
  refine (hs _).bind fun _ _ => hline.bind fun opt _ => ?_
  have hF := fmtIn data fmt hfmt
  revert hF
  generalize (if fmt == b!"ASCII" then Fmt.ascii else if fmt == b!"BINARY" then Fmt.binary else if fmt == b!"BIN_SAFE" then .binsafe else .binary) = F
  intro hF
  have h2 : ∀ w o : Bytes, RunsAt data (OpenWrong data) (fun _ => True) (do return (w, ← Rd.line true)) :=
    fun _ _ => hline.bind fun _ _ => .pure trivial
  have hend : ∀ (h : Header) (b : Bool), h.format = F →
      RunsAt data (OpenWrong data) (fun h => FmtIn data h.format) (if b then Rd.fail (.throw .parser) else Pure.pure h) := by
    intro h b e
    cases b
    · exact .pure (e ▸ hF)
    · exact .fail (ht _)
  dsimp only
  split
  · refine RunsAt.bind (h2 _ opt) fun x _ => ?_
    split
    · exact RunsAt.bind (h2 _ opt) fun y _ => hend _ _ rfl
    · exact RunsAt.bind (Q := fun _ => True) (.pure trivial) fun y _ => hend _ _ rfl
  · refine RunsAt.bind (Q := fun _ => True) (.pure trivial) fun x _ => ?_
    split
    · exact RunsAt.bind (h2 _ opt) fun y _ => hend _ _ rfl
    · exact RunsAt.bind (Q := fun _ => True) (.pure trivial) fun y _ => hend _ _ rfl

theorem readCountHeader_fwd (ignore : Bytes) : Fwd (.all True) (readCountHeader ignore) := by
  unfold readCountHeader
  refine (Fwd.line _).bind fun _ => ?_
  split
  · exact Fwd.throw _
  refine (stoi_fwd _).bind fun _ => (Fwd.lineThenIgnore _).bind fun _ => ?_
  split
  · exact Fwd.throw _
  · exact .pure _

theorem readTable_runs {data : Bytes} (hl : data.length < 2 ^ 32) {A : Fail → Prop} (hu : A .ub) (n : Nat) (es : List (Bytes × BitVec 32)) :
    RunsAt data A (fun _ => True) (Bs.readTable n es) := by
  induction n generalizing es with
  | zero => exact .pure trivial
  | succ n ih =>
    have f {α} {p : Rd α} (h : Fwd (.all False) p) : RunsAt data A (fun _ => True) p := by
      intro pos hp
      rcases h data pos ⟨hl, trivial⟩ hp with ⟨a, pos', e, b, l⟩ | ⟨hf, _⟩
      · exact .inl ⟨a, pos', e, b, l, trivial⟩
      · exact hf.elim
    refine (f Fwd.u16).bind fun _ _ => (f Fwd.u16).bind fun _ _ => (f Fwd.u32).bind fun _ _ => (f (Fwd.padded _)).bind fun _ _ => ?_
    split
    · exact ih _
    · exact .fail hu

theorem readHeader_runs {data : Bytes} (hl : data.length < 2 ^ 32) {A : Fail → Prop} (hu : A .ub) : RunsAt data A (fun _ => True) Bs.readHeader := by
  have f {α} {p : Rd α} (h : Fwd (.all False) p) : RunsAt data A (fun _ => True) p := by
    intro pos hp
    rcases h data pos ⟨hl, trivial⟩ hp with ⟨a, pos', e, b, l⟩ | ⟨hf, _⟩
    · exact .inl ⟨a, pos', e, b, l, trivial⟩
    · exact hf.elim
  unfold Bs.readHeader
  refine (f Fwd.u32).bind fun version _ => (f Fwd.u32).bind fun count _ => (f Fwd.u32).bind fun off _ => ?_
  intro pos hp
  rw [Rd.bind_ok (show Rd.tell ⟨data, pos⟩ = .ok (pos, ⟨data, pos⟩) from rfl)]
  obtain ⟨p1, e1, l1, _⟩ := Bs.seek_total off.toNat .beg data pos hp
  rw [Rd.bind_ok e1]
  rcases f Fwd.u32 p1 l1 with ⟨size, p2, e2, _, l2, _⟩ | ⟨e, he, ha⟩
  · rw [Rd.bind_ok e2]
    rcases readTable_runs hl hu size.toNat (List.replicate size.toNat ([], 0)) p2 l2 with ⟨es, p3, e3, _, l3, _⟩ | ⟨e, he, ha⟩
    · rw [Rd.bind_ok e3, Rd.bind_ok (Rd.seek_beg hp)]
      exact .inl ⟨_, pos, rfl, Nat.le_refl _, hp, trivial⟩
    · rw [Rd.bind_err he]
      exact .inr ⟨e, rfl, ha⟩
  · rw [Rd.bind_err he]
    exact .inr ⟨e, rfl, ha⟩

theorem openArchive_runs {data : Bytes} (hl : data.length < 2 ^ 32) :
    RunsAt data (OpenWrong data) (fun o => FmtIn data o.header.format) openArchive := by
  have ht : ∀ x, OpenWrong data (.throw x) := fun x => .inl ⟨x, rfl⟩
  refine (loadHeader_runs hl).bind fun h hf => ?_
  split
  · rename_i hb
    refine (RunsAt.of_fwd hl (readCountHeader_fwd _) ht).bind fun _ _ => .pure ?_
    exact hf
  · rename_i hb
    refine (RunsAt.of_fwd hl (readCountHeader_fwd _) ht).bind fun _ _ => .pure ?_
    exact hf
  · rename_i hb
    have hf' := hf
    rw [hb] at hf'
    exact (readHeader_runs hl (.inr ⟨rfl, hf'⟩)).bind fun _ _ => .pure hf

end Ar

/-! ## Materials -/

namespace Obj

/-- Like `Ld.Mild`, for programs that read no pointers. -/
inductive Ld.Quiet {α} : Ld Unit α → Prop where
  | ret (a : α) : Quiet (.ret a)
  | val {k f} (hk : Small k) (h : ∀ v, Fits k v → Quiet (f v)) : Quiet (.val k f)

namespace Ld.Quiet

theorem bind {α β} {p : Ld Unit α} {g : α → Ld Unit β} (hp : p.Quiet) (hg : ∀ a, (g a).Quiet) : (p >>= g).Quiet := by
  show (p.bind g).Quiet
  induction hp with
  | ret a => exact hg a
  | val hk _ ih => exact .val hk fun v hv => ih v hv

theorem str : Ld.Quiet Ld.str := .val trivial fun v h => by cases v <;> first | exact .ret _ | cases h
theorem float : Ld.Quiet Ld.float := .val trivial fun v h => by cases v <;> first | exact .ret _ | cases h
theorem enum : Ld.Quiet Ld.enum := .val trivial fun v h => by cases v <;> first | exact .ret _ | cases h
theorem bool : Ld.Quiet Ld.bool := .val trivial fun v h => by cases v <;> first | exact .ret _ | cases h
theorem color : Ld.Quiet Ld.color := .val trivial fun v h => by cases v <;> first | exact .ret _ | cases h
theorem vec2 : Ld.Quiet Ld.vec2 := .val trivial fun v h => by cases v <;> first | exact .ret _ | cases h

theorem opt {α} (b : Bool) (old : α) {p : Ld Unit α} (h : p.Quiet) : (Ld.opt b old p).Quiet := by
  unfold Ld.opt
  split
  · exact h
  · exact .ret _

end Ld.Quiet

theorem Material.quiet (c : Ctx) (o : Material) : (Material.load (P := Unit) c o).Quiet := by
  unfold Material.load
  repeat' (first
    | exact Ld.Quiet.str | exact Ld.Quiet.float | exact Ld.Quiet.enum | exact Ld.Quiet.bool | exact Ld.Quiet.color | exact Ld.Quiet.vec2
    | exact Ld.Quiet.ret _ | refine Ld.Quiet.opt _ _ ?_ | refine Ld.Quiet.bind ?_ (fun _ => ?_))

variable {σ K : Type} {r : Reader σ} {data : Bytes} {A : Fail → Prop} {pos : σ → Nat} {I : K → σ → Prop} {Child : K → Nat → K → Prop}

theorem Tame.exec {α} (T : Tame r data A pos I Child) {k : K} {p : Ld Unit α} (hp : p.Quiet) (s : σ) (hs : I k s) :
    (∃ a s', p.exec r s = .ok (a, s') ∧ I k s' ∧ pos s ≤ pos s') ∨ ∃ e, p.exec r s = .error e ∧ A e := by
  induction hp generalizing s with
  | ret a => exact .inl ⟨a, s, rfl, hs, Nat.le_refl _⟩
  | @val kd f hk _ ih =>
    unfold Ld.exec
    rcases T.val kd hk hs with ⟨v, s', e, hv, hs', hle⟩ | ⟨e, he, ha⟩
    · rw [e]
      rcases ih v hv s' hs' with ⟨a, s2, e2, h2, l2⟩ | h
      · exact .inl ⟨a, s2, e2, h2, by omega⟩
      · exact .inr h
    · rw [he]
      exact .inr ⟨e, rfl, ha⟩

theorem Tame.material (T : Tame r data A pos I Child) {k : K} (o : Material) (s : σ) (hs : I k s) :
    (∃ a s', Material.loadFrom r o s = .ok (a, s') ∧ I k s' ∧ pos s ≤ pos s') ∨ ∃ e, Material.loadFrom r o s = .error e ∧ A e := by
  unfold Material.loadFrom
  rcases T.val .string trivial hs with ⟨v, s1, e1, _, h1, l1⟩ | ⟨e, he, ha⟩
  · rw [e1]
    dsimp only
    rcases T.start h1 with ⟨s2, e2, _, _⟩ | ⟨h, s2, k', e2, h2, l2, hc, _, _⟩ | ⟨e, he, ha⟩
    · rw [e2]
      exact .inr ⟨_, rfl, T.throw _⟩
    · rw [e2]
      dsimp only
      split
      · exact .inr ⟨_, rfl, T.throw _⟩
      rcases T.exec (Material.quiet ⟨Material.game h.version, false, false⟩ o) s2 h2 with ⟨m, s3, e3, h3, l3⟩ | ⟨e, he, ha⟩
      · rw [e3]
        dsimp only
        rcases T.close hc h3 (by omega) with ⟨s4, e4, h4, l4⟩ | ⟨e, he, ha⟩
        · rw [e4]
          exact .inl ⟨m, s4, rfl, h4, by omega⟩
        · rw [he]
          exact .inr ⟨e, rfl, ha⟩
      · rw [he]
        exact .inr ⟨e, rfl, ha⟩
    · rw [he]
      exact .inr ⟨e, rfl, ha⟩
  · rw [he]
    exact .inr ⟨e, rfl, ha⟩

theorem Tame.materials (T : Tame r data A pos I Child) {k : K} (os : List Material) (s : σ) (hs : I k s) :
    (∃ a s', Material.loadMany r os s = .ok (a, s') ∧ I k s' ∧ pos s ≤ pos s') ∨ ∃ e, Material.loadMany r os s = .error e ∧ A e := by
  induction os generalizing s with
  | nil => exact .inl ⟨[], s, rfl, hs, Nat.le_refl _⟩
  | cons o os ih =>
    unfold Material.loadMany
    rcases T.material o s hs with ⟨m, s1, e1, h1, l1⟩ | ⟨e, he, ha⟩
    · rw [e1]
      dsimp only
      rcases ih s1 h1 with ⟨ms, s2, e2, h2, l2⟩ | ⟨e, he, ha⟩
      · rw [e2]
        exact .inl ⟨_, s2, rfl, h2, by omega⟩
      · rw [he]
        exact .inr ⟨e, rfl, ha⟩
    · rw [he]
      exact .inr ⟨e, rfl, ha⟩

/-- What may go wrong with the materials of a mesh. -/
def MatWrong (data : Bytes) (e : Fail) : Prop :=
  (∃ x, e = .throw x) ∨ e = .ub ∧ b!"BIN_SAFE" <:+: data ∨ b!"ASCII" <:+: data ∧ (e = .hang ∨ e = .ub ∧ b!"color" <:+: data)

theorem loadIn_runs {data : Bytes} (hl : data.length < 2 ^ 32) (fmt : Fmt) (hf : FmtIn data fmt) (os : List Material) :
    RunsAt data (MatWrong data) (fun _ => True) (Material.loadIn fmt os) := by
  intro p hp
  unfold Material.loadIn
  cases fmt with
  | binary =>
    dsimp only
    rcases (Bin.tame data hl).materials os ⟨⟨data, p⟩, []⟩ (show Bin.In data [] _ from ⟨rfl, hp, List.suffix_refl _, fun _ => rfl⟩) with ⟨a, s', e, h, l⟩ | ⟨e, he, x, hx⟩
    · rw [e]
      obtain ⟨⟨d, p'⟩, E⟩ := s'
      obtain ⟨h1, h2, _⟩ := h
      obtain rfl := h1
      exact .inl ⟨a, p', rfl, l, h2, trivial⟩
    · rw [he]
      exact .inr ⟨e, rfl, .inl ⟨x, hx⟩⟩
  | binsafe =>
    rcases (Bs.tame data hl).materials (k := ()) os ⟨data, p⟩ ⟨rfl, hp⟩ with ⟨a, ⟨d, p'⟩, e, ⟨h1, h2⟩, l⟩ | ⟨e, he, x, hx⟩
    · obtain rfl := h1
      exact .inl ⟨a, p', e, l, h2, trivial⟩
    · exact .inr ⟨e, he, .inl ⟨x, hx⟩⟩
  | ascii =>
    rcases (Asc.tame data hl).materials (k := ()) os ⟨data, p⟩ ⟨rfl, hp⟩ with ⟨a, ⟨d, p'⟩, e, ⟨h1, h2⟩, l⟩ | ⟨e, he, x | x | x⟩
    · obtain rfl := h1
      exact .inl ⟨a, p', e, l, h2, trivial⟩
    · exact .inr ⟨e, he, .inl x⟩
    · exact .inr ⟨e, he, .inr (.inr ⟨hf, .inl x⟩)⟩
    · exact .inr ⟨e, he, .inr (.inr ⟨hf, .inr x⟩)⟩

theorem open_matWrong {data : Bytes} {e : Fail} (h : OpenWrong data e) : MatWrong data e := by
  rcases h with h | h
  · exact .inl h
  · exact .inr (.inl h)

theorem loadParts_runs {data : Bytes} (hl : data.length < 2 ^ 32) (n : Nat) : RunsAt data (MatWrong data) (fun _ => True) (Material.loadParts n) := by
  have ho : RunsAt data (MatWrong data) (fun o => FmtIn data o.header.format) openArchive := fun p hp => by
    rcases openArchive_runs hl p hp with h | ⟨e, he, ha⟩
    · exact .inl h
    · exact .inr ⟨e, he, open_matWrong ha⟩
  exact ho.bind fun o hf => loadIn_runs hl _ hf _

theorem loadCounted_runs {data : Bytes} (hl : data.length < 2 ^ 32) (os : List Material) :
    RunsAt data (MatWrong data) (fun _ => True) (Material.loadCounted os) := by
  have ho : RunsAt data (MatWrong data) (fun o => FmtIn data o.header.format) openArchive := fun p hp => by
    rcases openArchive_runs hl p hp with h | ⟨e, he, ha⟩
    · exact .inl h
    · exact .inr ⟨e, he, open_matWrong ha⟩
  exact ho.bind fun o hf => (RunsAt.of_fwd (T := True) hl Fwd.u32 fun x => .inl ⟨x, rfl⟩).bind fun n _ => loadIn_runs hl _ hf _

end Obj

end Verif
