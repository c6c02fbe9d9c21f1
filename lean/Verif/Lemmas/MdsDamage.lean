import Verif.Lemmas.MeshTame
import Verif.Lemmas.Chunked
import Verif.Model.MdsBinary

/-! # Compiled model scripts on any bytes -/

namespace Verif

/-- The loop over the chunks for one file with an invariant. -/
theorem RunsAt.chunked_inv {data : Bytes} {A : Fail → Prop} {σ} {cb : σ → BitVec 16 → Rd (σ × Bool)} {I : σ → Prop}
    (h : ∀ s t, I s → RunsAt data A (fun r => I r.1) (cb s t)) :
    ∀ (fuel : Nat) (s : σ), I s → ∀ (pos : Nat), pos ≤ data.length → data.length - pos < fuel →
      (∃ a pos', readChunkedFuel (simpleCb cb) fuel s ⟨data, pos⟩ = .ok (a, ⟨data, pos'⟩) ∧ pos ≤ pos' ∧ pos' ≤ data.length ∧ I a) ∨
        ∃ e, readChunkedFuel (simpleCb cb) fuel s ⟨data, pos⟩ = .error e ∧ A e := by
  intro fuel
  induction fuel with
  | zero => intro _ _ _ _ _; omega
  | succ fuel ih =>
    intro s hs pos hp hf
    obtain ⟨t, e1⟩ := Rd.word_ok 16 2 data pos hp
    obtain ⟨z, e2⟩ := Rd.word_ok 32 4 data (min (pos + 2) data.length) (by omega)
    generalize hq : min (min (pos + 2) data.length + 4) data.length = q at e2
    have hq1 : q ≤ data.length := by omega
    simp only [readChunkedFuel]
    rw [Rd.bind_ok (show Rd.u16 _ = _ from e1), Rd.bind_ok (show Rd.u32 _ = _ from e2),
      Rd.bind_ok (show Rd.tell ⟨data, q⟩ = .ok (q, _) from rfl)]
    unfold simpleCb
    rcases h s t hs q hq1 with ⟨⟨s', done⟩, pos3, e3, b3, l3, i3⟩ | ⟨e, he, ha⟩
    · rw [Rd.bind_ok (show (do
          let (s', done) ← cb s t
          return (s', done, q + z.toNat) : Rd (σ × Bool × Nat)) ⟨data, q⟩ = .ok ((s', done, q + z.toNat), ⟨data, pos3⟩) by
        rw [Rd.bind_ok e3]; rfl)]
      dsimp only
      have hs : ∃ pos4, Rd.seek ((q + z.toNat : Nat) : Int) .beg ⟨data, pos3⟩ = .ok ((), ⟨data, pos4⟩) ∧ q ≤ pos4 ∧ pos4 ≤ data.length := by
        unfold Rd.seek
        dsimp only [Rd.seekTarget]
        split
        · exact ⟨pos3, rfl, b3, l3⟩
        · exact ⟨_, rfl, by omega, by omega⟩
      obtain ⟨pos4, e4, b4, l4⟩ := hs
      rw [Rd.bind_ok e4]
      cases done with
      | true => exact .inl ⟨s', pos4, rfl, by omega, l4, i3⟩
      | false =>
        simp only [Bool.false_eq_true, if_false]
        rw [Rd.bind_ok (show Rd.eof ⟨data, pos4⟩ = .ok (decide (pos4 ≥ data.length), ⟨data, pos4⟩) from rfl)]
        by_cases h5 : decide (pos4 ≥ data.length) = true
        · rw [if_pos h5]
          exact .inl ⟨s', pos4, rfl, by omega, l4, i3⟩
        · rw [if_neg h5]
          simp only [decide_eq_true_eq] at h5
          rcases ih s' i3 pos4 l4 (by omega) with ⟨a, pos5, e5, b5, l5, i5⟩ | h6
          · exact .inl ⟨a, pos5, e5, by omega, l5, i5⟩
          · exact .inr h6
    · refine .inr ⟨e, ?_, ha⟩
      rw [Rd.bind_err (show (do
          let (s', done) ← cb s t
          return (s', done, q + z.toNat) : Rd (σ × Bool × Nat)) ⟨data, q⟩ = .error e by rw [Rd.bind_err he])]

/-- One complete chunk: the handler is called for its type, and the next turn begins behind it. -/
theorem RunsAt.chunk_step {data : Bytes} {A : Fail → Prop} {σ} {cb : σ → BitVec 16 → Rd (σ × Bool)} {I J : σ → Prop} {fuel : Nat} {s : σ}
    {pre payload rest : Bytes} {t : BitVec 16} (hd : data = pre ++ chunkBytes t payload ++ rest) (hl : payload.length < 2 ^ 32)
    (h : RunsAt data A (fun r => J r.1) (cb s t)) (hdone : ∀ a, J a → I a)
    (hnext : ∀ s', J s' → pre.length + 6 + payload.length < data.length →
      (∃ a pos', readChunkedFuel (simpleCb cb) fuel s' ⟨data, pre.length + 6 + payload.length⟩ = .ok (a, ⟨data, pos'⟩) ∧ pos' ≤ data.length ∧ I a) ∨
        ∃ e, readChunkedFuel (simpleCb cb) fuel s' ⟨data, pre.length + 6 + payload.length⟩ = .error e ∧ A e) :
    (∃ a pos', readChunkedFuel (simpleCb cb) (fuel + 1) s ⟨data, pre.length⟩ = .ok (a, ⟨data, pos'⟩) ∧ pos' ≤ data.length ∧ I a) ∨
      ∃ e, readChunkedFuel (simpleCb cb) (fuel + 1) s ⟨data, pre.length⟩ = .error e ∧ A e := by
  have hlen : data.length = pre.length + 6 + payload.length + rest.length := by rw [hd]; simp [chunkBytes_length]; omega
  have e1 : Rd.u16 ⟨data, pre.length⟩ = .ok (t, ⟨data, pre.length + 2⟩) := by
    have := Reads.u16 t pre (encW 4 (BitVec.ofNat 32 payload.length) ++ payload ++ rest)
    rw [hd]
    simpa [chunkBytes] using this
  have e2 : Rd.u32 ⟨data, pre.length + 2⟩ = .ok (BitVec.ofNat 32 payload.length, ⟨data, pre.length + 6⟩) := by
    have := Reads.u32 (BitVec.ofNat 32 payload.length) (pre ++ encW 2 t) (payload ++ rest)
    rw [hd]
    simpa [chunkBytes] using this
  have hz : (BitVec.ofNat 32 payload.length).toNat = payload.length := by rw [BitVec.toNat_ofNat]; omega
  simp only [readChunkedFuel]
  rw [Rd.bind_ok e1, Rd.bind_ok e2, Rd.bind_ok (show Rd.tell ⟨data, pre.length + 6⟩ = .ok (pre.length + 6, _) from rfl), hz]
  unfold simpleCb
  rcases h (pre.length + 6) (by omega) with ⟨⟨s', done⟩, pos3, e3, b3, l3, i3⟩ | ⟨e, he, ha⟩
  · rw [Rd.bind_ok (show (do
        let (s', done) ← cb s t
        return (s', done, pre.length + 6 + payload.length) : Rd (σ × Bool × Nat)) ⟨data, pre.length + 6⟩ =
          .ok ((s', done, pre.length + 6 + payload.length), ⟨data, pos3⟩) by
      rw [Rd.bind_ok e3]; rfl)]
    dsimp only
    have e4 : Rd.seek ((pre.length + 6 + payload.length : Nat) : Int) .beg ⟨data, pos3⟩ = .ok ((), ⟨data, pre.length + 6 + payload.length⟩) := by
      unfold Rd.seek
      dsimp only [Rd.seekTarget]
      rw [if_neg (by omega)]
      exact congrArg (fun n => Except.ok ((), (⟨data, n⟩ : Rs))) (by omega)
    rw [Rd.bind_ok e4]
    cases done with
    | true => exact .inl ⟨s', _, rfl, by omega, hdone _ i3⟩
    | false =>
      simp only [Bool.false_eq_true, if_false]
      rw [Rd.bind_ok (show Rd.eof ⟨data, pre.length + 6 + payload.length⟩ =
        .ok (decide (pre.length + 6 + payload.length ≥ data.length), ⟨data, pre.length + 6 + payload.length⟩) from rfl)]
      by_cases h5 : decide (pre.length + 6 + payload.length ≥ data.length) = true
      · rw [if_pos h5]
        exact .inl ⟨s', _, rfl, by omega, hdone _ i3⟩
      · rw [if_neg h5]
        simp only [decide_eq_true_eq] at h5
        exact hnext s' i3 (by omega)
  · refine .inr ⟨e, ?_, ha⟩
    rw [Rd.bind_err (show (do
        let (s', done) ← cb s t
        return (s', done, pre.length + 6 + payload.length) : Rd (σ × Bool × Nat)) ⟨data, pre.length + 6⟩ = .error e by rw [Rd.bind_err he])]

namespace Mds

/-- The names of the events with frames. -/
def frameNames : List Bytes := [b!"DEF_DAM_MULTIPLY", b!"DEF_PAR_FRAME", b!"DEF_OPT_FRAME", b!"DEF_HIT_END", b!"DEF_WINDOW"]

/-- What may go wrong once there is an animation: text that is no number in the frames of an event. -/
def MsbWrong (data : Bytes) (e : Fail) : Prop := e = .hang ∧ ∃ n ∈ frameNames, n <:+: data

/-- The current animation exists. -/
def HasAni (st : MsbSt) : Prop := st.2.toNat < st.1.animations.length

/-- No animation has been loaded, or the current one exists. -/
def MayAni (st : MsbSt) : Prop := st.2 = -1 ∨ HasAni st

variable {data : Bytes}

theorem atAni_runs {A : Fail → Prop} {st : MsbSt} (h : HasAni st) (f : Animation → Animation) : RunsAt data A (fun r => HasAni r.1) (atAni st f) := by
  unfold atAni
  rw [if_pos (show st.2.toNat < st.1.animations.length from h)]
  refine .pure ?_
  show _ < (List.modify _ _ _).length
  rw [List.length_modify]
  exact h

section
variable {A : Fail → Prop} {α : Type} {Q : α → Prop}

theorem u32_then (hl : data.length < 2 ^ 32) {f : BitVec 32 → Rd α} (h : ∀ x, RunsAt data A Q (f x)) : RunsAt data A Q (Rd.u32 >>= f) := by
  intro pos hp
  obtain ⟨v, e⟩ := Rd.word_ok 32 4 data pos hp
  rw [Rd.bind_ok (show Rd.u32 _ = _ from e)]
  rcases h v _ (show min (pos + 4) data.length ≤ data.length by omega) with ⟨a, p, e, b, l, q⟩ | h
  · exact .inl ⟨a, p, e, by omega, l, q⟩
  · exact .inr h

theorem ite_then {c : Prop} [Decidable c] {p q : Rd α} (hp : RunsAt data A Q p) (hq : RunsAt data A Q q) :
    RunsAt data A Q (if c then p else q) := by
  by_cases h : c
  · rw [if_pos h]; exact hp
  · rw [if_neg h]; exact hq

theorem line_then (hl : data.length < 2 ^ 32) {skip : Bool} {f : Bytes → Rd α} (h : ∀ x, x <:+: data → RunsAt data A Q (f x)) :
    RunsAt data A Q (Rd.line skip >>= f) := (RunsAt.line skip hl).bind h

end

theorem lookup_mem {α β} [BEq α] [LawfulBEq α] {a : α} {b : β} : ∀ {l : List (α × β)}, l.lookup a = some b → (a, b) ∈ l
  | [], h => by cases h
  | (x, y) :: l, h => by
    rw [List.lookup_cons] at h
    split at h
    · rename_i he
      cases h
      rw [eq_of_beq he]
      exact List.mem_cons_self ..
    · exact List.mem_cons_of_mem _ (lookup_mem h)

theorem frameName {type : Bytes} (h : (eventTypes.lookup type).getD .unknown ∈ [EventType.damageMultiplier, .parryFrame, .optimalFrame, .hitEnd, .comboWindow]) :
    type ∈ frameNames := by
  cases hl : eventTypes.lookup type with
  | none => rw [hl] at h; simp at h
  | some k =>
    rw [hl] at h
    have := lookup_mem hl
    revert this h
    simp only [Option.getD_some]
    have all : ∀ p ∈ eventTypes, p.2 ∈ [EventType.damageMultiplier, .parryFrame, .optimalFrame, .hitEnd, .comboWindow] → p.1 ∈ frameNames := by decide
    exact fun h hm => all _ hm h

theorem framesLoopB_hang : ∀ (fuel : Nat) (s : Bytes) (fr : BitVec 32) (acc : List (BitVec 32)) {e : Fail}, framesLoopB fuel s fr acc = .error e → e = .hang := by
  intro fuel
  induction fuel with
  | zero => intro s fr acc e h; cases h; rfl
  | succ fuel ih =>
    intro s fr acc e h
    unfold framesLoopB at h
    dsimp only at h
    split at h
    · cases h
    · split at h
      · cases h; rfl
      · exact ih _ _ _ h

theorem msbTag_runs (hl : data.length < 2 ^ 32) {st : MsbSt} (h : HasAni st) : RunsAt data (MsbWrong data) (fun r => HasAni r.1) (msbTag st) := by
  unfold msbTag
  refine u32_then hl fun frame => line_then hl fun type ht => ?_
  refine RunsAt.bind (Q := fun _ => True) ?_ fun evt _ => atAni_runs h _
  unfold msbArgs
  dsimp only
  split
  all_goals first
    | exact line_then hl fun _ _ => line_then hl fun _ _ => .pure trivial
    | exact line_then hl fun _ _ => .pure trivial
    | exact .pure trivial
    | skip
  all_goals
    rename_i hty
    refine line_then hl fun fr _ => ?_
    split
    · rename_i e he
      refine .fail ⟨framesLoopB_hang _ _ _ _ he, type, frameName (by rw [hty]; decide), ht⟩
    · exact .pure trivial

theorem msbAni_runs {A : Fail → Prop} (hl : data.length < 2 ^ 32) {st : MsbSt} (h : MayAni st) : RunsAt data A (fun r => HasAni r.1) (msbAni st) := by
  unfold msbAni
  refine line_then hl fun _ _ => u32_then hl fun _ => line_then hl fun _ _ => u32_then hl fun _ => u32_then hl fun _ => line_then hl fun _ _ =>
    line_then hl fun _ _ => line_then hl fun _ _ => u32_then hl fun _ => u32_then hl fun _ => u32_then hl fun _ => u32_then hl fun _ => u32_then hl fun _ => ?_
  refine .pure ?_
  unfold HasAni
  dsimp only
  rw [List.length_append, List.length_singleton]
  rcases h with h | h
  · rw [h]
    show (0 : BitVec 32).toNat < _
    simp
  · unfold HasAni at h
    have : (st.2 + 1).toNat ≤ st.2.toNat + 1 := by
      rw [BitVec.toNat_add]
      exact Nat.mod_le _ _
    omega

/-- The chunks of events. -/
def eventChunks : List (BitVec 16) := [0xF5AA, 0xF5A1, 0xF5A2, 0xF5A3, 0xF5A4, 0xF5A5, 0xF5A9]

theorem msbChunk_events (hl : data.length < 2 ^ 32) {st : MsbSt} (h : HasAni st) (t : BitVec 16) :
    RunsAt data (MsbWrong data) (fun r => HasAni r.1) (msbChunk st t) := by
  have same : ∀ (s : Script), s.animations = st.1.animations → HasAni (s, st.2) := by
    intro s hs
    show st.2.toNat < s.animations.length
    rw [hs]
    exact h
  unfold msbChunk
  refine ite_then ?_ (ite_then ?_ (ite_then ?_ (ite_then ?_ (ite_then ?_ (ite_then ?_ (ite_then ?_ (ite_then ?_ (ite_then ?_ (ite_then ?_ (ite_then ?_ (ite_then ?_ (ite_then ?_ (ite_then ?_ (ite_then ?_ (ite_then ?_ (ite_then ?_ (ite_then ?_ ?_)))))))))))))))))
  · exact u32_then hl fun _ => line_then hl fun _ _ => .pure (same _ rfl)
  · exact line_then hl fun _ _ => .pure (same _ rfl)
  · exact msbAni_runs hl (.inr h)
  · exact line_then hl fun _ _ => u32_then hl fun _ => line_then hl fun _ _ => u32_then hl fun _ => u32_then hl fun _ => line_then hl fun _ _ =>
      line_then hl fun _ _ => line_then hl fun _ _ => .pure (same _ rfl)
  · exact line_then hl fun _ _ => line_then hl fun _ _ => u32_then hl fun _ => u32_then hl fun _ => .pure (same _ rfl)
  · exact line_then hl fun _ _ => u32_then hl fun _ => line_then hl fun _ _ => u32_then hl fun _ => u32_then hl fun _ => line_then hl fun _ _ =>
      line_then hl fun _ _ => u32_then hl fun _ => .pure (same _ rfl)
  · exact line_then hl fun _ _ => .pure (same _ rfl)
  · exact u32_then hl fun _ => u32_then hl fun _ => u32_then hl fun _ => u32_then hl fun _ => u32_then hl fun _ => atAni_runs h _
  · refine RunsAt.bind (Q := fun _ => True) ?_ fun _ _ => atAni_runs h _
    exact u32_then hl fun _ => line_then hl fun _ _ => u32_then hl fun _ => u32_then hl fun _ => .pure trivial
  · refine RunsAt.bind (Q := fun _ => True) ?_ fun _ _ => atAni_runs h _
    exact u32_then hl fun _ => line_then hl fun _ _ => u32_then hl fun _ => u32_then hl fun _ => .pure trivial
  · exact u32_then hl fun _ => line_then hl fun _ _ => line_then hl fun _ _ => .pure (same _ rfl)
  · exact msbTag_runs hl h
  · exact u32_then hl fun _ => u32_then hl fun _ => line_then hl fun _ _ => line_then hl fun _ _ => u32_then hl fun _ => atAni_runs h _
  · exact u32_then hl fun _ => u32_then hl fun _ => atAni_runs h _
  · exact u32_then hl fun _ => line_then hl fun _ _ => line_then hl fun _ _ => u32_then hl fun _ => u32_then hl fun _ => atAni_runs h _
  · exact u32_then hl fun _ => line_then hl fun _ _ => .pure h
  · refine RunsAt.bind (Q := fun _ => True) ?_ fun _ _ => line_then hl fun _ _ => .pure h
    intro pos hp
    rcases (Fwd.date (T := .all False)) data pos ⟨hl, trivial⟩ hp with ⟨a, p, e, b, l⟩ | ⟨hf, _⟩
    · exact .inl ⟨a, p, e, b, l, trivial⟩
    · exact hf.elim
  · exact u32_then hl fun _ => .pure h
  · exact .pure h

/-- Before the first event. -/
theorem msbChunk_other (hl : data.length < 2 ^ 32) {st : MsbSt} (h : MayAni st) {t : BitVec 16} (ht : t ∉ eventChunks) :
    RunsAt data (MsbWrong data) (fun r => MayAni r.1 ∧ (t = 0xF520 → HasAni r.1)) (msbChunk st t) := by
  have same : ∀ (s : Script), s.animations = st.1.animations → MayAni (s, st.2) := by
    intro s hs
    rcases h with h | h
    · exact .inl h
    · right
      show st.2.toNat < s.animations.length
      rw [hs]
      exact h
  have no : ∀ {s : MsbSt}, MayAni s → ¬ t = 0xF520 → MayAni s ∧ (t = 0xF520 → HasAni s) := fun hm hn => ⟨hm, fun he => absurd he hn⟩
  simp only [eventChunks, List.mem_cons, List.not_mem_nil, or_false, not_or] at ht
  obtain ⟨n1, n2, n3, n4, n5, n6, n7⟩ := ht
  unfold msbChunk
  by_cases c0 : t = 0xF520
  · rw [if_neg (by rw [c0]; decide), if_neg (by rw [c0]; decide), if_pos c0]
    intro pos hp
    rcases msbAni_runs (A := MsbWrong data) hl h pos hp with ⟨a, p, e, b, l, q⟩ | h
    · exact .inl ⟨a, p, e, b, l, .inr q, fun _ => q⟩
    · exact .inr h
  · rw [if_neg c0, if_neg n1, if_neg n2, if_neg n3, if_neg n4, if_neg n5, if_neg n6, if_neg n7]
    refine ite_then ?_ (ite_then ?_ (ite_then ?_ (ite_then ?_ (ite_then ?_ (ite_then ?_ (ite_then ?_ (ite_then ?_ (ite_then ?_ (ite_then ?_ ?_)))))))))
    · exact u32_then hl fun _ => line_then hl fun _ _ => .pure (no (same _ rfl) c0)
    · exact line_then hl fun _ _ => .pure (no (same _ rfl) c0)
    · exact line_then hl fun _ _ => u32_then hl fun _ => line_then hl fun _ _ => u32_then hl fun _ => u32_then hl fun _ => line_then hl fun _ _ =>
        line_then hl fun _ _ => line_then hl fun _ _ => .pure (no (same _ rfl) c0)
    · exact line_then hl fun _ _ => line_then hl fun _ _ => u32_then hl fun _ => u32_then hl fun _ => .pure (no (same _ rfl) c0)
    · exact line_then hl fun _ _ => u32_then hl fun _ => line_then hl fun _ _ => u32_then hl fun _ => u32_then hl fun _ => line_then hl fun _ _ =>
        line_then hl fun _ _ => u32_then hl fun _ => .pure (no (same _ rfl) c0)
    · exact line_then hl fun _ _ => .pure (no (same _ rfl) c0)
    · exact u32_then hl fun _ => line_then hl fun _ _ => line_then hl fun _ _ => .pure (no (same _ rfl) c0)
    · exact u32_then hl fun _ => line_then hl fun _ _ => .pure (no h c0)
    · refine RunsAt.bind (Q := fun _ => True) ?_ fun _ _ => line_then hl fun _ _ => .pure (no h c0)
      intro pos hp
      rcases (Fwd.date (T := .all False)) data pos ⟨hl, trivial⟩ hp with ⟨a, p, e, b, l⟩ | ⟨hf, _⟩
      · exact .inl ⟨a, p, e, b, l, trivial⟩
      · exact hf.elim
    · exact u32_then hl fun _ => .pure (no h c0)
    · exact .pure (no h c0)

end Mds

end Verif
