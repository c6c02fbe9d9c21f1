import Verif.Lemmas.DaedalusMemoryCall
import Verif.Lemmas.DaedalusOps
import Verif.Lemmas.DaedalusCode

/-!
# Lemmas about the memory of the machine (C100): execution
-/

namespace Verif.Daedalus

open Verif.Spec.Daedalus

/-! ## Decoding always succeeds -/

def Always {α} (p : Rd α) : Prop := ∀ s, ∃ a s', p s = .ok (a, s')

theorem Always.bind {α β} {p : Rd α} {f : α → Rd β} (hp : Always p) (hf : ∀ a, Always (f a)) : Always (p >>= f) := fun s => by
  obtain ⟨a, s', h⟩ := hp s
  obtain ⟨b, s'', h'⟩ := hf a s'
  refine ⟨b, s'', ?_⟩
  show (match p s with | .ok (a, s') => f a s' | .error e => .error e) = _
  rw [h]
  exact h'

theorem Always.pure {α} (a : α) : Always (Pure.pure a : Rd α) := fun s => ⟨a, s, rfl⟩
theorem Always.padded (k : Nat) : Always (Rd.readPadded k) := fun s => ⟨_, _, rfl⟩
theorem Always.u32 : Always Rd.u32 := (Always.padded 4).bind fun _ => Always.pure _
theorem Always.char : Always Rd.char := (Always.padded 1).bind fun _ => Always.pure _
theorem Always.seek (o : Int) (w : Whence) : Always (Rd.seek o w) := fun s => by
  unfold Rd.seek
  dsimp only
  split <;> exact ⟨_, _, rfl⟩

theorem Always.decode : Always decode := by
  rw [decode_eq]
  refine Always.char.bind fun c => ?_
  cases (Op.ofByte c).kind
  · exact Always.pure _
  · exact Always.u32.bind fun _ => Always.pure _
  · exact Always.u32.bind fun _ => Always.pure _
  · exact Always.u32.bind fun _ => Always.pure _
  · exact Always.u32.bind fun _ => Always.char.bind fun _ => Always.pure _

theorem fetch_ok (v : Vm) : ∃ i tp, fetch v = (.ok i, { v with textPos := tp }) := by
  obtain ⟨i, s, h⟩ := ((Always.seek v.pc.toNat .beg).bind fun _ => Always.decode) ⟨v.text, v.textPos⟩
  refine ⟨i, s.pos, ?_⟩
  unfold fetch instructionAt
  rw [h]

/-! ## Operators -/

theorem binop_safe {op : Op} (hop : op ∈ binaryOps) {a b : BitVec 32} (h : Calculable op a b) : binop op a b ≠ .error .ub := by
  rcases h with h | ⟨h, rfl⟩
  · obtain ⟨r, hr, -⟩ := binop_ok hop a b h
    rw [hr]
    simp
  · rw [binop_zero h]
    simp

theorem TmAt.execBin {v : Vm} (hs : Tidy v) {op : Op} (h : ∀ a b, operands v = some (a, b) → binop op a b ≠ .error .ub) :
    TmAt v (fun r _ => r = .next) (execBin op) := by
  unfold Daedalus.execBin
  refine (TmAt.popInt hs).bind fun a w ea hw _ _ _ => (TmAt.popInt hw).bind fun b u eb hu _ _ _ => ?_
  refine (TmAt.lift hu (h a b ?_)).bind fun r t _ _ _ _ e => ?_
  · unfold operands
    rw [ea]
    dsimp only
    rw [eb]
  · obtain ⟨-, rfl⟩ := e
    exact (TmAt.pushInt hu r).bind fun _ x _ hx _ _ _ => TmAt.pure hx rfl

theorem TmAt.execUn {v : Vm} (hs : Tidy v) {op : Op} (h : ∀ a w, Daedalus.popInt v = (.ok a, w) → unop op a ≠ .error .ub) :
    TmAt v (fun r _ => r = .next) (execUn op) := by
  unfold Daedalus.execUn
  refine (TmAt.popInt hs).bind fun a w ea hw _ _ _ => ?_
  refine (TmAt.lift hw (h a w ea)).bind fun r t _ _ _ _ e => ?_
  obtain ⟨-, rfl⟩ := e
  exact (TmAt.pushInt hw r).bind fun _ x _ hx _ _ _ => TmAt.pure hx rfl

theorem TmAt.assignOp {v : Vm} (hs : Tidy v) {op : Op} (h : ∀ x b, assigned v = some (x, b) → binop op x b ≠ .error .ub) :
    TmAt v (fun _ _ => True) (assignOp op) := by
  unfold Daedalus.assignOp
  refine (TmAt.popRef hs).bind fun r w er hw _ _ hr => ?_
  obtain ⟨y, i, p⟩ := r
  obtain ⟨-, hy⟩ := hr
  dsimp only
  refine (TmAt.popInt hw).bind fun b u eb hu k _ _ => ?_
  have hyu := notHollow_same hw k.toSame hy
  split
  · exact TmAt.throw hu _
  · refine (TmAt.checkConst hu (lt_of_some hyu)).bind fun _ t _ _ _ _ e => ?_
    subst e
    obtain ⟨s, h1, h2⟩ := hyu
    refine TmAt.symAt_bind h1 (TmAt.get_bind ?_)
    split
    · refine (TmAt.symGetInt hu ⟨s, h1, h2⟩ (.inr i.toNat_lt)).bind fun x t' ex _ _ _ e => ?_
      subst e
      refine (TmAt.lift hu (h x b ?_)).bind fun r t'' _ _ _ _ e => ?_
      · unfold assigned
        rw [er]
        dsimp only
        rw [eb]
        dsimp only
        rw [ex]
      · obtain ⟨-, rfl⟩ := e
        exact (TmAt.symSetInt hu ⟨s, h1, h2⟩ (.inr i.toNat_lt)).mono fun _ _ _ _ _ _ _ => trivial
    · exact TmAt.pure hu trivial

/-! ## Calls of functions of the host -/

variable {h : Host}

theorem LvAt.keep {α} {n m : Nat} (hnm : n ≤ m) {v : Vm} {p : M α} {Q : α → Vm → Prop} (hp : LvAt h m v Q p) :
    LvAt h n v (fun a w => m ≤ w.calls.length ∧ Q a w) p := by
  unfold LvAt at hp ⊢
  match h' : p v with
  | (.ok b, u) =>
    rw [h'] at hp
    exact ⟨hp.1, hp.2.1, Nat.le_trans hnm hp.2.2.1, hp.2.2⟩
  | (.error .ub, w) => rw [h'] at hp; exact hp
  | (.error (.throw e), w) => rw [h'] at hp; exact ⟨hp.1, hp.2.1, Nat.le_trans hnm hp.2.2⟩
  | (.error .terminate, w) => rw [h'] at hp; exact ⟨hp.1, hp.2.1, Nat.le_trans hnm hp.2.2⟩
  | (.error .hang, w) => rw [h'] at hp; exact ⟨hp.1, hp.2.1, Nat.le_trans hnm hp.2.2⟩

theorem LvAt.guarded {α} {n : Nat} {v : Vm} {p : M α} {Q : α → Vm → Prop} (hp : LvAt h n v Q p) (t : DType) :
    LvAt h n v Q (guarded t p) := by
  unfold LvAt at hp ⊢
  unfold Daedalus.guarded
  match h' : p v with
  | (.ok b, u) => rw [h'] at hp; exact hp
  | (.error .ub, w) => rw [h'] at hp; exact hp
  | (.error .terminate, w) => rw [h'] at hp; exact hp
  | (.error .hang, w) => rw [h'] at hp; exact hp
  | (.error (.throw e), w) =>
    rw [h'] at hp
    obtain ⟨h1, h2, h3⟩ := hp
    have hf := LvAt.ofTm h1 h3 (TmAt.fix h1.sound t)
    unfold LvAt at hf
    dsimp only
    match hfx : fix t w with
    | (.ok b, u) => rw [hfx] at hf; exact ⟨hf.1, h2.trans hf.2.1, hf.2.2.1⟩
    | (.error .ub, u) => rw [hfx] at hf; exact hf
    | (.error .terminate, u) => rw [hfx] at hf; exact ⟨hf.1, h2.trans hf.2.1, hf.2.2⟩
    | (.error .hang, u) => rw [hfx] at hf; exact ⟨hf.1, h2.trans hf.2.1, hf.2.2⟩
    | (.error (.throw e), u) => rw [hfx] at hf; exact ⟨hf.1, h2.trans hf.2.1, hf.2.2⟩

theorem LvAt.bindOk {α β} {n : Nat} {v : Vm} {p : M α} {Q : α → Vm → Prop} {R : β → Vm → Prop} (hp : LvAt h n v Q p) {b : β}
    (hR : ∀ w, R b w) : LvAt h n v R (p >>= fun _ => Pure.pure b) :=
  hp.bind fun _ _ _ hw _ hn _ => LvAt.pure hw hn (hR _)

theorem LvAt.symByIndex_bind {β} {n : Nat} {v : Vm} (hg : Good h v) (hn : n ≤ v.calls.length) {x : BitVec 32} {f : Nat × Sym → M β}
    {R : β → Vm → Prop} (hf : ∀ s, v.syms[x.toNat]? = some s → LvAt h n v R (f (x.toNat, s))) :
    LvAt h n v R (symByIndex x >>= f) := by
  match hx : v.syms[x.toNat]? with
  | some s =>
    have : symByIndex x v = (.ok (x.toNat, s), v) := by
      unfold symByIndex
      rw [M.get_bind]
      rw [hx]
      rfl
    have hf := hf s hx
    unfold LvAt at hf ⊢
    rw [M.bind_ok this]
    exact hf
  | none =>
    have : symByIndex x v = (.error (.throw .daedalusVm), v) := by
      unfold symByIndex
      rw [M.get_bind]
      rw [hx]
      rfl
    unfold LvAt
    rw [M.bind_err this]
    exact ⟨hg, Same.refl v, hn⟩

theorem _root_.Verif.Spec.Daedalus.TameHost.same {v w : Vm} (hg : Good h v) (hT : TameHost h v) (hs : Same v w) : TameHost h w := by
  refine ⟨fun y p f he hf => ?_, hT.override_, hT.default_, hT.trap, hT.handler⟩
  have hlt : y < v.syms.length := hs.len ▸ (List.getElem?_eq_some_iff.mp hf).1
  obtain ⟨g, hg1, hg2, -⟩ := hg.callables.external y (by rw [he]; rfl) hlt
  obtain ⟨f', e1, -, e3⟩ := hs.decl y g hg1
  rw [hf] at e1
  obtain rfl := Option.some.inj e1
  rw [extent_count (e3 hg2)]
  exact hT.external y p g he hg1

theorem LvAt.execBl {v : Vm} (hT : TameHost h v) (hg : Good h v) {call : Nat → M Unit} {a : BitVec 32} {n : Nat}
    (hn : n ≤ v.calls.length)
    (hcall : h.override_ a = none → ∀ y, findByAddress v.syms a = some y → LvAt h n v (fun _ _ => True) (call y)) :
    LvAt h n v (fun r _ => r = .next) (execBl h call a) := by
  unfold Daedalus.execBl
  refine LvAt.get_bind ?_
  match ho : h.override_ a with
  | some cb =>
    have hy := hg.callables.override_ a (by rw [ho]; rfl)
    obtain ⟨y, hy⟩ := Option.isSome_iff_exists.mp hy
    obtain ⟨f, hf, -⟩ := hg.callables.code a y hy
    dsimp only
    rw [hy]
    exact LvAt.symAt_bind hf (((LvAt.ofLeaves hg hn (hT.override_ a cb ho) trivial).guarded f.rtype).bindOk fun _ => rfl)
  | none =>
    dsimp only
    match hy : findByAddress v.syms a with
    | none => exact LvAt.throw hg hn _
    | some y => exact (hcall ho y hy).bindOk fun _ => rfl

theorem LvAt.execBe {v : Vm} (hT : TameHost h v) (hg : Good h v) {x : BitVec 32}
    (hsp : ∀ f, v.syms[x.toNat]? = some f → HasParams v x.toNat ∧ ((h.external x.toNat).isSome → f.count.toNat ≤ v.sp.toNat)) :
    LvAt h v.calls.length v (fun r _ => r = .next) (execBe h x) := by
  unfold Daedalus.execBe
  refine LvAt.symByIndex_bind hg (Nat.le_refl _) fun s hs => ?_
  dsimp only
  refine LvAt.bindOk (Q := fun _ _ => True) (LvAt.guarded ?_ s.rtype) fun _ => rfl
  match he : h.external x.toNat with
  | some cb =>
    dsimp only
    have hF := hg.callables.external x.toNat (by rw [he]; rfl) (List.getElem?_eq_some_iff.mp hs).1
    refine (LvAt.pushCall hg hF hs ((hsp s hs).2 (by rw [he]; rfl))).bind fun _ w _ hw _ _ hq => ?_
    refine ((LvAt.ofLeaves hw hq.1 (hT.external _ cb s he hs) hq.2).keep (Nat.le_succ _)).bind fun _ u _ hu _ _ hq' => ?_
    exact LvAt.popCall hu hq'.1 hq'.2
  | none =>
    dsimp only
    match hd : h.default_ with
    | some d => exact LvAt.ofLeaves hg (Nat.le_refl _) (hT.default_ d x.toNat hd) (hsp s hs).1
    | none => exact LvAt.throw hg (Nat.le_refl _) _

theorem LvAt.pushVar {v : Vm} (hT : TameHost h v) (hg : Good h v) {y : Nat} {s : Sym} (hs : v.syms[y]? = some s) (hh : ¬ Hollow s) :
    LvAt h v.calls.length v (fun _ _ => True) (pushVar h y s) := by
  unfold Daedalus.pushVar
  have hp : LvAt h v.calls.length v (fun _ _ => True) (pushRef y 0) :=
    (LvAt.ofTm hg (Nat.le_refl _) (TmAt.pushRef hg.sound ⟨s, hs, hh⟩ 0)).mono (Nat.le_refl _) fun _ _ _ _ => trivial
  match ht : h.trap with
  | some t =>
    dsimp only
    split
    · exact LvAt.ofLeaves hg (Nat.le_refl _) (hT.trap t y ht) (List.getElem?_eq_some_iff.mp hs).1
    · exact hp
  | none => exact hp

/-! ## One instruction -/

theorem LvAt.tm {α} {v : Vm} (hg : Good h v) {p : M α} {Q R : α → Vm → Prop} (hp : TmAt v Q p) (hq : ∀ a w, Q a w → R a w) :
    LvAt h v.calls.length v R p :=
  (LvAt.ofTm hg (Nat.le_refl _) hp).mono (Nat.le_refl _) fun a w _ hh => hq a w hh.2.2

theorem calculable_free {op : Op} (ho : op ∈ [Op.or, .andb, .lt, .gt, .lte, .eq, .neq, .gte, .orr, .and]) (a b : BitVec 32) :
    binop op a b ≠ .error .ub := by
  simp only [List.mem_cons, List.not_mem_nil, or_false] at ho
  rcases ho with rfl | rfl | rfl | rfl | rfl | rfl | rfl | rfl | rfl | rfl <;> simp [binop]

/-- The state in which an instruction is executed, and what the script has seen to. -/
theorem LvAt.execOp {v w : Vm} (hT : TameHost h w) (hg : Good h w) {i : Instr} {tp : Nat} (hw : w = { v with textPos := tp })
    (hfetch : fetch v = (.ok i, w)) (hc : Careful h v) {call : Nat → M Unit}
    (hcall : ∀ y, callee h v = some y → LvAt h w.calls.length w (fun _ _ => True) (call y)) :
    LvAt h w.calls.length w (fun r u => r = .ret → Untouched u) (execOp h call i) := by
  obtain ⟨hu, hcond⟩ := hc
  have hcond := hcond i w hfetch
  have huw : Untouched w := by subst hw; exact hu
  have hsy : w.syms = v.syms := by subst hw; rfl
  have hspw : w.sp = v.sp := by subst hw; rfl
  have nx : ∀ (r : Step) (u : Vm), r = .next → r = .ret → Untouched u := fun r u h1 h2 => by rw [h1] at h2; cases h2
  have unit : ∀ {p : M Unit} {Q : Unit → Vm → Prop}, TmAt w Q p →
      LvAt h w.calls.length w (fun r u => r = .ret → Untouched u) (do p; return Step.next) := fun hp =>
    (LvAt.ofTm hg (Nat.le_refl _) hp).bindOk fun _ h' => by cases h'
  cases hop : i.op <;> rw [hop] at hcond <;> simp only [Daedalus.execOp, hop]
  case add => exact LvAt.tm hg (TmAt.execBin hg.sound fun a b hab => binop_safe (by decide) (hcond a b hab)) nx
  case sub => exact LvAt.tm hg (TmAt.execBin hg.sound fun a b hab => binop_safe (by decide) (hcond a b hab)) nx
  case mul => exact LvAt.tm hg (TmAt.execBin hg.sound fun a b hab => binop_safe (by decide) (hcond a b hab)) nx
  case div => exact LvAt.tm hg (TmAt.execBin hg.sound fun a b hab => binop_safe (by decide) (hcond a b hab)) nx
  case mod => exact LvAt.tm hg (TmAt.execBin hg.sound fun a b hab => binop_safe (by decide) (hcond a b hab)) nx
  case lsl => exact LvAt.tm hg (TmAt.execBin hg.sound fun a b hab => binop_safe (by decide) (hcond a b hab)) nx
  case lsr => exact LvAt.tm hg (TmAt.execBin hg.sound fun a b hab => binop_safe (by decide) (hcond a b hab)) nx
  case plus => exact LvAt.tm hg (TmAt.execUn hg.sound fun a w' _ => by simp [unop]) nx
  case not => exact LvAt.tm hg (TmAt.execUn hg.sound fun a w' _ => by simp [unop]) nx
  case cmpl => exact LvAt.tm hg (TmAt.execUn hg.sound fun a w' _ => by simp [unop]) nx
  case negate =>
    refine LvAt.tm hg (TmAt.execUn hg.sound fun a w' ha => ?_) nx
    have h1 := hcond a w' ha
    have h2 := BitVec.toInt_lt (x := a)
    have h3 := BitVec.le_toInt (x := a)
    simp only [unop, i32]
    rw [if_pos (by omega)]
    simp
  case nop => exact LvAt.pure hg (Nat.le_refl _) (fun h' => by cases h')
  case unknown => exact LvAt.pure hg (Nat.le_refl _) (fun h' => by cases h')
  case rsr => exact LvAt.pure hg (Nat.le_refl _) (fun _ => huw)
  case bl =>
    refine (LvAt.execBl hT hg (Nat.le_refl _) fun ho y hy => hcall y ?_).mono (Nat.le_refl _) fun r u _ => nx r u
    unfold callee
    rw [hfetch]
    dsimp only
    rw [hop, ho]
    rw [hsy] at hy
    exact hy
  case be =>
    refine (LvAt.execBe hT hg fun f hf => ?_).mono (Nat.le_refl _) fun r u _ => nx r u
    unfold HasParams
    rw [hspw, hsy]
    rw [hsy] at hf
    exact hcond f hf
  case pushi => exact unit (TmAt.pushInt hg.sound _)
  case pushv =>
    refine LvAt.symByIndex_bind hg (Nat.le_refl _) fun s hs => ?_
    exact (LvAt.pushVar hT hg hs (hcond s (by rw [← hsy]; exact hs))).bindOk fun _ h' => by cases h'
  case pushvi =>
    refine LvAt.symByIndex_bind hg (Nat.le_refl _) fun s hs => ?_
    exact (LvAt.pushVar hT hg hs (hcond s (by rw [← hsy]; exact hs))).bindOk fun _ h' => by cases h'
  case pushvv =>
    refine LvAt.symByIndex_bind hg (Nat.le_refl _) fun s hs => ?_
    exact unit (TmAt.pushRef hg.sound ⟨s, hs, hcond s (by rw [← hsy]; exact hs)⟩ _)
  case movi =>
    refine LvAt.tm hg (Q := fun r _ => r = .next) ((TmAt.popRef hg.sound).bind fun r u _ hu _ _ hr => ?_) nx
    refine (TmAt.popInt hu).bind fun x t _ ht k _ _ => ?_
    exact (TmAt.vmSetInt ht (notHollow_same hu k.toSame hr.2) x r.2.1 r.2.2).bind fun _ _ _ hz _ _ _ => TmAt.pure hz rfl
  case movvf =>
    refine LvAt.tm hg (Q := fun r _ => r = .next) ((TmAt.popRef hg.sound).bind fun r u _ hu _ _ hr => ?_) nx
    refine (TmAt.popInt hu).bind fun x t _ ht k _ _ => ?_
    exact (TmAt.vmSetInt ht (notHollow_same hu k.toSame hr.2) x r.2.1 r.2.2).bind fun _ _ _ hz _ _ _ => TmAt.pure hz rfl
  case movf =>
    refine LvAt.tm hg (Q := fun r _ => r = .next) ((TmAt.popRef hg.sound).bind fun r u _ hu _ _ hr => ?_) nx
    refine (TmAt.popFloat hu).bind fun x t _ ht k _ _ => ?_
    exact (TmAt.vmSetFloat ht (lt_of_some (notHollow_same hu k.toSame hr.2)) x r.2.1 r.2.2).bind
      fun _ _ _ hz _ _ _ => TmAt.pure hz rfl
  case movs =>
    refine LvAt.tm hg (Q := fun r _ => r = .next) ((TmAt.popRef hg.sound).bind fun r u _ hu _ _ hr => ?_) nx
    refine (TmAt.popString hu).bind fun x t _ ht k _ _ => ?_
    exact (TmAt.vmSetString ht (lt_of_some (notHollow_same hu k.toSame hr.2)) x r.2.1 r.2.2).bind
      fun _ _ _ hz _ _ _ => TmAt.pure hz rfl
  case movss => exact LvAt.throw hg (Nat.le_refl _) _
  case movvi =>
    refine LvAt.tm hg (Q := fun r _ => r = .next) ((TmAt.popRef hg.sound).bind fun r u _ hu _ _ hr => ?_) nx
    refine (TmAt.popInst hu).bind fun x t _ ht k _ hx => ?_
    exact (TmAt.symSetInstance ht (lt_of_some (notHollow_same hu k.toSame hr.2)) hx.2).bind fun _ _ _ hz _ _ _ => TmAt.pure hz rfl
  case addmovi => exact unit (TmAt.assignOp hg.sound fun x b hx => binop_safe (by decide) (hcond x b hx))
  case submovi => exact unit (TmAt.assignOp hg.sound fun x b hx => binop_safe (by decide) (hcond x b hx))
  case mulmovi => exact unit (TmAt.assignOp hg.sound fun x b hx => binop_safe (by decide) (hcond x b hx))
  case divmovi => exact unit (TmAt.assignOp hg.sound fun x b hx => binop_safe (by decide) (hcond x b hx))
  case b => exact (LvAt.jump hg (Nat.le_refl _) _).bindOk fun _ h' => by cases h'
  case bz =>
    refine (LvAt.ofTm hg (Nat.le_refl _) (TmAt.popInt hg.sound)).bind fun x u _ hu _ hn _ => ?_
    split
    · exact (LvAt.jump hu hn _).bindOk fun _ h' => by cases h'
    · exact LvAt.pure hu hn (fun h' => by cases h')
  case gmovi =>
    refine LvAt.symByIndex_bind hg (Nat.le_refl _) fun s hs => ?_
    refine (LvAt.ofTm hg (Nat.le_refl _) (TmAt.symGetInstance hg.sound (List.getElem?_eq_some_iff.mp hs).1)).bind
      fun p u _ hu _ hn _ => LvAt.get_bind ?_
    exact ⟨hu.aside u.textPos u.pc p, Same.aside u u.textPos u.pc p, hn, fun h' => by cases h'⟩
  all_goals exact LvAt.tm hg (TmAt.execBin hg.sound fun a b _ => calculable_free (by decide) a b) nx

theorem LvAt.advance {v : Vm} {n : Nat} (hg : Good h v) (hn : n ≤ v.calls.length) (i : Instr) :
    LvAt h n v (fun _ _ => True) (advance i) :=
  ⟨hg.aside v.textPos (v.pc + BitVec.ofNat 32 i.size) v.instance_, Same.aside v v.textPos _ v.instance_, hn, trivial⟩

theorem LvAt.execCatch {v : Vm} (hT : TameHost h v) {n : Nat} (hg : Good h v) (hn : n ≤ v.calls.length) (e : Exc) (i : Instr) :
    LvAt h n v (fun b w => b = false → Untouched w) (execCatch h e i) := by
  unfold Daedalus.execCatch
  refine LvAt.get_bind ?_
  match hh : h.handler with
  | none => exact LvAt.throw hg hn _
  | some hd =>
    dsimp only
    refine (LvAt.ofLeaves hg hn (hT.handler hd e i hh) trivial).bind fun r w _ hw _ hn' hq => ?_
    match r, hq with
    | .fail, _ => exact LvAt.throw hw hn' _
    | .return_, hq => exact LvAt.pure hw hn' fun _ => hq rfl
    | .continue_, _ =>
      dsimp only
      refine LvAt.get_bind ?_
      split
      · exact (LvAt.advance hw hn' i).bindOk fun _ h' => by cases h'
      · exact LvAt.pure hw hn' fun h' => by cases h'

theorem LvAt.exec {v : Vm} (hT : TameHost h v) (hg : Good h v) (hc : Careful h v) {call : Nat → M Unit}
    (hcall : ∀ y, callee h v = some y → LvAt h v.calls.length (fetch v).2 (fun _ _ => True) (call y)) :
    LvAt h v.calls.length v (fun b w => b = false → Untouched w) (exec h call) := by
  obtain ⟨i, tp, hf⟩ := fetch_ok v
  have hgw : Good h { v with textPos := tp } := hg.aside tp v.pc v.instance_
  have hsame : Same v { v with textPos := tp } := Same.aside v tp v.pc v.instance_
  rw [hf] at hcall
  have hop := LvAt.execOp (hT.same hg hsame) hgw rfl hf hc hcall
  suffices hs : LvAt h v.calls.length { v with textPos := tp } (fun b w => b = false → Untouched w) (execInstr h call i) by
    unfold Daedalus.exec
    refine LvAt.bind (Q := fun a w => a = i ∧ w = { v with textPos := tp }) ?_ fun a w _ _ _ _ e => ?_
    · unfold LvAt
      rw [hf]
      exact ⟨hgw, hsame, Nat.le_refl _, rfl, rfl⟩
    · obtain ⟨rfl, rfl⟩ := e
      exact hs
  unfold LvAt at hop
  unfold LvAt execInstr
  match he : Daedalus.execOp h call i { v with textPos := tp } with
  | (.ok .next, u) =>
    rw [he] at hop
    have := (LvAt.advance hop.1 hop.2.2.1 i).bindOk (b := true) (R := fun b w => b = false → Untouched w) fun _ h' => by cases h'
    exact ⟨this.1, hop.2.1.trans this.2.1, this.2.2⟩
  | (.ok .stay, u) => rw [he] at hop; exact ⟨hop.1, hop.2.1, hop.2.2.1, fun h' => by cases h'⟩
  | (.ok .ret, u) => rw [he] at hop; exact ⟨hop.1, hop.2.1, hop.2.2.1, fun _ => hop.2.2.2 rfl⟩
  | (.error .ub, u) => rw [he] at hop; exact hop
  | (.error .terminate, u) => rw [he] at hop; exact hop
  | (.error .hang, u) => rw [he] at hop; exact hop
  | (.error (.throw e), u) =>
    rw [he] at hop
    dsimp only
    by_cases hse : isScriptError e = true
    · rw [if_pos hse]
      have hx := LvAt.execCatch (hT.same hg (hsame.trans hop.2.1)) hop.1 hop.2.2 e i
      unfold LvAt at hx
      match hy : Daedalus.execCatch h e i u with
      | (.ok b, t) => rw [hy] at hx; exact ⟨hx.1, hop.2.1.trans hx.2.1, hx.2.2⟩
      | (.error .ub, t) => rw [hy] at hx; exact hx
      | (.error .terminate, t) => rw [hy] at hx; exact ⟨hx.1, hop.2.1.trans hx.2.1, hx.2.2⟩
      | (.error .hang, t) => rw [hy] at hx; exact ⟨hx.1, hop.2.1.trans hx.2.1, hx.2.2⟩
      | (.error (.throw _), t) => rw [hy] at hx; exact ⟨hx.1, hop.2.1.trans hx.2.1, hx.2.2⟩
    · rw [if_neg hse]
      exact hop

/-! ## Whole calls -/

theorem LvAt.loop {step : M Bool} {inner : Vm → List Vm}
    (hstep : ∀ v, TameHost h v → Good h v → (∀ x ∈ v :: inner v, Careful h x) →
      LvAt h v.calls.length v (fun b w => b = false → Untouched w) step) (n : Nat) :
    ∀ (k : Nat) (v : Vm), TameHost h v → Good h v → n ≤ v.calls.length → (∀ x ∈ loopStates step inner k v, Careful h x) →
      LvAt h n v (fun _ w => Untouched w) (loop step k)
  | 0, v, _, hg, hn, _ => ⟨hg, Same.refl v, hn⟩
  | k + 1, v, hT, hg, hn, hall => by
    unfold Daedalus.loop
    have hs := hstep v hT hg fun x hx => hall x (by
      unfold loopStates
      exact List.mem_append_left _ hx)
    refine (hs.mono hn fun _ _ _ hq => hq).bind fun b w e hw sw hn' hq => ?_
    cases b with
    | false => exact LvAt.pure hw hn' (hq rfl)
    | true =>
      refine LvAt.loop hstep n k w (hT.same hg sw) hw hn' fun x hx => hall x ?_
      unfold loopStates
      rw [e]
      exact List.mem_append_right _ hx

theorem M.bind_assoc {α β γ} (p : M α) (f : α → M β) (g : β → M γ) : (p >>= f) >>= g = p >>= fun a => f a >>= g := by
  funext v
  rw [M.bind_def, M.bind_def, M.bind_def]
  cases hp : p v with
  | mk r w => cases r <;> rfl

theorem LvAt.unsafeCall : ∀ (fuel y : Nat) (v : Vm), TameHost h v → Good h v → Fits v y →
    (∀ f, v.syms[y]? = some f → f.count.toNat ≤ v.sp.toNat) → (∀ x ∈ states h fuel y v, Careful h x) →
    LvAt h v.calls.length v (fun _ _ => True) (unsafeCall h fuel y)
  | 0, y, v, _, hg, _, _, _ => ⟨hg, Same.refl v, Nat.le_refl _⟩
  | fuel + 1, y, v, hT, hg, hy, hsp, hall => by
    have hsplit : Daedalus.unsafeCall h (fuel + 1) y = (do Daedalus.pushCall y; let f ← symAt y; Daedalus.jump f.address : M Unit) >>= fun _ => (do
        Daedalus.loop (Daedalus.exec h (Daedalus.unsafeCall h fuel)) fuel
        Daedalus.popCall : M Unit) := by
      rw [M.bind_assoc]
      show (do
        Daedalus.pushCall y
        let f ← symAt y
        Daedalus.jump f.address
        Daedalus.loop (Daedalus.exec h (Daedalus.unsafeCall h fuel)) fuel
        Daedalus.popCall : M Unit) = _
      congr 1
      funext _
      rw [M.bind_assoc]
    rw [hsplit]
    obtain ⟨f, hf, -⟩ := id hy
    have hstart : LvAt h v.calls.length v (fun _ w => v.calls.length + 1 ≤ w.calls.length)
        (do Daedalus.pushCall y; let f ← symAt y; Daedalus.jump f.address : M Unit) := by
      refine (LvAt.pushCall hg hy hf (hsp f hf)).bind fun _ w _ hw hsm hn hq => ?_
      obtain ⟨f', e1, -⟩ := hsm.decl _ _ hf
      refine LvAt.symAt_bind e1 ((LvAt.jump hw hn _).mono (Nat.le_refl _) fun _ u _ hu => ?_)
      rw [hu.1]
      exact hq.1
    refine hstart.bind fun _ w e hw sw _ hq => ?_
    have hall' : ∀ x ∈ loopStates (Daedalus.exec h (Daedalus.unsafeCall h fuel)) (fun u => match callee h u with
        | some z => states h fuel z (fetch u).2
        | none => []) fuel w, Careful h x := by
      intro x hx
      refine hall x ?_
      unfold states
      rw [e]
      exact hx
    refine LvAt.bind (LvAt.keep (Nat.le_succ _) (LvAt.loop (h := h) ?_ (v.calls.length + 1) fuel w (hT.same hg sw) hw hq hall'))
      fun _ u _ hu _ _ hq' => LvAt.popCall hu hq'.1 hq'.2
    intro u hT hu hcu
    refine LvAt.exec hT hu (hcu u (List.mem_cons_self ..)) fun z hz => ?_
    obtain ⟨i, tp, hfe⟩ := fetch_ok u
    have hgt : Good h { u with textPos := tp } := hu.aside tp u.pc u.instance_
    rw [hz] at hcu
    rw [hfe] at hcu ⊢
    dsimp only at hcu ⊢
    have hadr : i.op = .bl ∧ findByAddress u.syms i.address = some z := by
      unfold callee at hz
      rw [hfe] at hz
      dsimp only at hz
      split at hz
      · rename_i h1 _; exact ⟨h1, hz⟩
      · cases hz
    have hfits : Fits { u with textPos := tp } z := (hu.callables.code _ _ hadr.2).same (Same.aside u tp u.pc u.instance_)
    refine LvAt.unsafeCall fuel z { u with textPos := tp } (hT.same hu (Same.aside u tp u.pc u.instance_)) hgt hfits (fun g hg' => ?_) fun x hx => hcu x (List.mem_cons_of_mem _ hx)
    have := (hcu u (List.mem_cons_self ..)).2 i _ hfe
    rw [hadr.1] at this
    exact this z g hz hg'

end Verif.Daedalus
