import Verif.Lemmas.DaedalusApiCall
import Verif.Props.DaedalusCall
import Verif.Props.DaedalusLayout
import Verif.Props.DaedalusString

/-!
# The interface of the virtual machine to its host (C66, C69, C70, C77)
-/

namespace Verif.Props

open Verif.Daedalus Verif.Spec.Daedalus

/-! ## C66: functions and classes -/

/-- **C66** (partial): a callback gets for a parameter of type function what the number on the stack means, however many
variables lead there. Missing: variables without a value and cycles, for which the claim is false. -/
theorem c66_function_partial {v : Vm} (hf : FunctionsSet v.syms) (ht : v.tmp < v.syms.length) {below : List Frame} {f : Frame}
    {id : BitVec 32} {r : Option Nat} (hs : Stk v (below ++ [f])) (hi : IntIn v f id) (hd : Denotes v.syms id r) :
    ∃ N w, (∀ fuel, N ≤ fuel → popValue fuel .func v = (.ok (.func r), w)) ∧ Stk w below :=
  have ⟨N, w, h1, h2, _⟩ := popValue_in hf ht (t := .func) (x := .func r) ⟨id, hi, hd⟩ hs
  ⟨N, w, h1, h2⟩

/-- A number means one thing. -/
theorem c66_unique {syms : List Sym} {id : BitVec 32} {r r' : Option Nat} (h : Denotes syms id r) (h' : Denotes syms id r') :
    r = r' := by
  induction h with
  | missing h => cases h' <;> simp_all
  | other h ht => cases h' <;> simp_all
  | const h ht hc => cases h' <;> simp_all
  | @var id s x rest r h ht hc hv _ ih =>
    cases h' with
    | missing h2 => simp_all
    | other h2 ht2 => simp_all
    | const h2 ht2 hc2 => simp_all
    | var h2 ht2 hc2 hv2 hd =>
      rw [h] at h2
      cases h2
      rw [hv] at hv2
      cases hv2
      exact ih hd

/-- Three variables that lead to a function. -/
def chained : List Sym :=
  [{ type := .function, count := 1, value := .ints (some [some 1]), index := 0 },
   { type := .function, count := 1, value := .ints (some [some 2]), index := 1 },
   { type := .function, count := 1, value := .ints (some [some 3]), index := 2 },
   { type := .function, flags := 1, index := 3 }]

example : FunctionsSet chained := by
  intro s hs ht hc
  simp only [chained, List.mem_cons, List.not_mem_nil, or_false] at hs
  rcases hs with rfl | rfl | rfl | rfl
  · exact ⟨rfl, by decide, 1, [], rfl⟩
  · exact ⟨rfl, by decide, 2, [], rfl⟩
  · exact ⟨rfl, by decide, 3, [], rfl⟩
  · cases hc

example : Denotes chained 0 (some 3) :=
  .var (s := chained[0]) rfl rfl rfl rfl (.var (s := chained[1]) rfl rfl rfl rfl (.var (s := chained[2]) rfl rfl rfl rfl
    (.const (s := chained[3]) rfl rfl rfl)))

/-- **C66** (negation): where the variables never lead to a function the machine never calls the callback. For every script. -/
theorem c66_cycle_violation {v : Vm} (hf : FunctionsSet v.syms) {below : List Frame} {f : Frame} {id : BitVec 32}
    (hs : Stk v (below ++ [f])) (hi : IntIn v f id) (hd : ∀ r, ¬ Denotes v.syms id r) :
    ∃ w, ∀ fuel, popValue fuel .func v = (.error .hang, w) := by
  obtain ⟨w, h1, -, h3⟩ := popInt_in hs hi
  have hf' : FunctionsSet w.syms := by rw [h3.vars.syms]; exact hf
  have hd' : ∀ r, ¬ Denotes w.syms id r := by rw [h3.vars.syms]; exact hd
  refine ⟨w, fun fuel => ?_⟩
  unfold popValue
  dsimp only
  rw [M.bind_ok h1, M.bind_err (resolve_hang hf' fuel id hd')]

/-- There is such a script: a variable that holds its own index. -/
theorem c66_cycle_witness : ∃ v : Vm, FunctionsSet v.syms ∧ Stk v [.int 0] ∧ ∀ r, ¬ Denotes v.syms 0 r := by
  refine ⟨{ syms := [{ type := .function, count := 1, value := .ints (some [some 0]), index := 0 }],
            tmp := 0, stack := [some (.int 0)], sp := 1 }, ?_, ⟨rfl, by decide, rfl⟩, ?_⟩
  · intro s hs ht hc
    simp only [List.mem_cons, List.not_mem_nil, or_false] at hs
    subst hs
    exact ⟨rfl, by decide, 0, [], rfl⟩
  · intro r h
    have : ∀ id r, Denotes [{ type := .function, count := 1, value := .ints (some [some 0]), index := 0 }] id r → id ≠ 0 := by
      intro id r h
      induction h with
      | missing h => intro he; subst he; cases h
      | other h ht => intro he; subst he; cases h; exact ht rfl
      | const h ht hc => intro he; subst he; cases h; cases hc
      | var h ht hc hv _ ih =>
        intro he
        subst he
        cases h
        cases hv
        exact ih rfl
    exact this 0 r h rfl

/-- **C66** (negation): `load` leaves a variable of type function without a value; passing it on reads that. -/
theorem c66_uninit_violation :
    (popValue 5 .func { syms := [{ type := .function, count := 1, value := .ints (some [none]), index := 0 }],
                           tmp := 0, stack := [some (.int 0)], sp := 1 }).1 = .error .ub := by
  decide +kernel

/-- **C66**: the class of an instance is found through any number of prototypes. -/
theorem c66_class {syms : List Sym} {i c : Nat} (h : ClassOf syms i c) :
    ∃ N k, syms[c]? = some k ∧ k.type = .class_ ∧ ∀ fuel, N ≤ fuel → classLoop syms fuel syms[i]? = .ok k ∧
      opaqueLoop syms fuel syms[i]? = .ok (some k) := by
  obtain ⟨N, k, h1, h2, h3⟩ := classLoop_ok h
  obtain ⟨N', k', h1', h3'⟩ := opaqueLoop_ok h
  rw [h1] at h1'
  cases h1'
  exact ⟨max N N', k, h1, h2, fun fuel hl => ⟨h3 fuel (by omega), h3' fuel (by omega)⟩⟩

theorem allocate_step {v : Vm} {fuel t a y : Nat} {s p : Sym} (hs : v.syms[y]? = some s) (ht : s.type = .instance)
    (hp : v.syms[s.parent.toNat]? = some p) : allocateInstance fuel t a (some y) v =
      (M.lift (classLoop v.syms fuel (some p)) >>= fun c => match c.registeredTo with
        | none => M.ub
        | some r =>
          if r ≠ t then M.throw .daedalusVm
          else match v.heap[a]? with
            | none => M.ub
            | some i => do
              M.set { v with heap := v.heap.set a { i with type := some t, symIndex := s.index } }
              symSetInstance y (some a)) v := by
  unfold allocateInstance
  dsimp only
  rw [M.bind_ok (symAt_some hs), if_neg (by rw [ht]; simp), M.get_bind, hp]
  rfl

/-- **C66** (negation): if an instance descends from no class, `allocate_instance` dereferences null. -/
theorem c66_orphan_violation {v : Vm} {t a y : Nat} {s p : Sym} (hs : v.syms[y]? = some s) (ht : s.type = .instance)
    (hp : v.syms[s.parent.toNat]? = some p) (ho : Orphan v.syms s.parent.toNat) :
    ∃ N, ∀ fuel, N ≤ fuel → allocateInstance fuel t a (some y) v = (.error .ub, v) := by
  obtain ⟨N, h⟩ := classLoop_orphan ho
  refine ⟨N, fun fuel hl => ?_⟩
  have := h fuel hl
  rw [hp] at this
  rw [allocate_step hs ht hp, this]
  rfl

/-- `init_opaque_instance` refuses such an instance. -/
theorem c66_opaque_orphan (h : Host) {v : Vm} {self : Option Nat} {t y : Nat} (hy : y < v.syms.length) (ho : Orphan v.syms y) :
    ∃ N, ∀ fuel, N ≤ fuel → initOpaque h fuel self t (some y) v = (.error (.throw .daedalusVm), v) := by
  obtain ⟨N, hN⟩ := opaqueLoop_orphan ho
  refine ⟨N, fun fuel hl => ?_⟩
  have := hN fuel hl
  rw [List.getElem?_eq_getElem hy] at this
  unfold initOpaque
  dsimp only
  rw [M.bind_ok (symAt_some (List.getElem?_eq_getElem hy)), M.get_bind, this]
  rfl

/-- **C66** (negation): if the chain of parents is a cycle, both do not return. -/
theorem c66_class_cycle_violation (h : Host) {v : Vm} {self : Option Nat} {t a y : Nat} {s : Sym} (hs : v.syms[y]? = some s)
    (ht : s.type = .instance) (hc : ∀ c, ¬ ClassOf v.syms y c) (ho : ¬ Orphan v.syms y) (fuel : Nat) :
    allocateInstance fuel t a (some y) v = (.error .hang, v) ∧ initOpaque h fuel self t (some y) v = (.error .hang, v) := by
  have hne : s.type ≠ .class_ := by rw [ht]; simp
  have hpc : ∀ c, ¬ ClassOf v.syms s.parent.toNat c := fun c h => hc c (.up hs hne h)
  have hpo : ¬ Orphan v.syms s.parent.toNat := fun h => ho (.up hs hne h)
  constructor
  · cases hp : v.syms[s.parent.toNat]? with
    | none => exact absurd (.gone hp) hpo
    | some p =>
      have := (classLoop_hang fuel _ hpc hpo).1
      rw [hp] at this
      rw [allocate_step hs ht hp, this]
      rfl
  · have := (classLoop_hang fuel _ hc ho).2
    rw [hs] at this
    unfold initOpaque
    dsimp only
    rw [M.bind_ok (symAt_some hs), M.get_bind, this]
    rfl

/-- An instance that is its own parent. -/
def ownParent : List Sym := [{ type := .instance, parent := 0, value := .inst none, index := 0 }]

example : (∀ c, ¬ ClassOf ownParent 0 c) ∧ ¬ Orphan ownParent 0 := by
  have h1 : ∀ i c, ClassOf ownParent i c → i ≠ 0 := by
    intro i c h
    induction h with
    | here h ht => intro he; subst he; cases h; cases ht
    | up h ht _ ih => intro he; subst he; cases h; exact ih rfl
  have h2 : ∀ i, Orphan ownParent i → i ≠ 0 := by
    intro i h
    induction h with
    | gone h => intro he; subst he; cases h
    | up h ht _ ih => intro he; subst he; cases h; exact ih rfl
  exact ⟨fun c h => h1 0 c h rfl, fun h => h2 0 h rfl⟩

/-! ## C70: classes and their registration -/

/-- **C70** (partial): an object of the class an instance is registered to becomes that instance: the symbol holds it and it
knows its class and its symbol. Missing: classes that are not registered, for which the claim is false. -/
theorem c70_allocate_partial {v : Vm} {t a y c : Nat} {s k : Sym} {i : Inst} {q : Option Nat} (hs : v.syms[y]? = some s)
    (ht : s.type = .instance) (hv : s.value = .inst q) (hc : ClassOf v.syms s.parent.toNat c) (hk : v.syms[c]? = some k)
    (hr : k.registeredTo = some t) (ha : v.heap[a]? = some i) :
    ∃ N w, (∀ fuel, N ≤ fuel → allocateInstance fuel t a (some y) v = (.ok (), w)) ∧ symGetInstance y w = (.ok (some a), w) ∧
      w.heap[a]? = some { i with type := some t, symIndex := s.index } ∧
      (∀ z, z ≠ y → w.syms[z]? = v.syms[z]?) ∧ (∀ b, b ≠ a → w.heap[b]? = v.heap[b]?) := by
  obtain ⟨N, k', h1, -, h3⟩ := classLoop_ok hc
  rw [hk] at h1
  cases h1
  have hy : y < v.syms.length := (List.getElem?_eq_some_iff.mp hs).1
  have hal : a < v.heap.length := (List.getElem?_eq_some_iff.mp ha).1
  refine ⟨N, { v with heap := v.heap.set a { i with type := some t, symIndex := s.index },
                      syms := v.syms.set y { s with value := .inst (some a) } }, fun fuel hl => ?_, ?_, ?_, ?_, ?_⟩
  · have hf := h3 fuel hl
    have hp : ∃ p, v.syms[s.parent.toNat]? = some p := by
      cases hc with
      | here h _ => exact ⟨_, h⟩
      | up h _ _ => exact ⟨_, h⟩
    obtain ⟨p, hp⟩ := hp
    rw [hp] at hf
    rw [allocate_step hs ht hp, hf]
    show ((match k.registeredTo with
        | none => M.ub
        | some r => _ : M Unit)) v = _
    rw [hr]
    dsimp only
    rw [if_neg (by simp), ha]
    dsimp only
    rw [M.set_bind]
    unfold symSetInstance
    rw [M.bind_ok (symAt_some (v := { v with heap := v.heap.set a { i with type := some t, symIndex := s.index } }) hs)]
    have : s.setInstance (some a) = .ok { s with value := .inst (some a) } := by
      unfold Sym.setInstance
      rw [if_neg (by rw [ht]; simp)]
      simp only [hv]
    rw [this]
    rfl
  · unfold symGetInstance
    have e : (v.syms.set y { s with value := .inst (some a) })[y]? = some { s with value := .inst (some a) } :=
      List.getElem?_set_self hy
    rw [M.bind_ok (symAt_some e)]
    have : Sym.getInstance { s with value := .inst (some a) } = .ok (some a) := by
      unfold Sym.getInstance
      rw [if_neg (by simp [ht])]
    rw [this]
    rfl
  · exact List.getElem?_set_self hal
  · intro z hz
    exact List.getElem?_set_ne (Ne.symm hz)
  · intro b hb
    exact List.getElem?_set_ne (Ne.symm hb)

/-- **C70**: an object of another class than the one registered is refused with an exception, and nothing changes. -/
theorem c70_wrong {v : Vm} {t t' a y c : Nat} {s k : Sym} (hs : v.syms[y]? = some s) (ht : s.type = .instance)
    (hc : ClassOf v.syms s.parent.toNat c) (hk : v.syms[c]? = some k) (hr : k.registeredTo = some t') (hne : t' ≠ t) :
    ∃ N, ∀ fuel, N ≤ fuel → allocateInstance fuel t a (some y) v = (.error (.throw .daedalusVm), v) := by
  obtain ⟨N, k', h1, -, h3⟩ := classLoop_ok hc
  rw [hk] at h1
  cases h1
  refine ⟨N, fun fuel hl => ?_⟩
  have hf := h3 fuel hl
  have hp : ∃ p, v.syms[s.parent.toNat]? = some p := by
    cases hc with
    | here h _ => exact ⟨_, h⟩
    | up h _ _ => exact ⟨_, h⟩
  obtain ⟨p, hp⟩ := hp
  rw [hp] at hf
  rw [allocate_step hs ht hp, hf]
  show ((match k.registeredTo with
      | none => M.ub
      | some r => _ : M Unit)) v = _
  rw [hr]
  dsimp only
  rw [if_pos hne]
  rfl

/-- **C70** (negation): for every class without a registered member, `allocate_instance` and `init_instance` dereference null
instead of refusing it. -/
theorem c70_unregistered_violation (h : Host) (self : Option Nat) {v : Vm} {t a y c : Nat} {s k : Sym} (hs : v.syms[y]? = some s)
    (ht : s.type = .instance) (hc : ClassOf v.syms s.parent.toNat c) (hk : v.syms[c]? = some k) (hr : k.registeredTo = none) :
    ∃ N, ∀ fuel, N ≤ fuel → allocateInstance fuel t a (some y) v = (.error .ub, v) ∧
      initInstance h fuel self t a (some y) v = (.error .ub, v) := by
  obtain ⟨N, k', h1, -, h3⟩ := classLoop_ok hc
  rw [hk] at h1
  cases h1
  refine ⟨N, fun fuel hl => ?_⟩
  have hf := h3 fuel hl
  have hp : ∃ p, v.syms[s.parent.toNat]? = some p := by
    cases hc with
    | here h _ => exact ⟨_, h⟩
    | up h _ _ => exact ⟨_, h⟩
  obtain ⟨p, hp⟩ := hp
  rw [hp] at hf
  have he : allocateInstance fuel t a (some y) v = (.error .ub, v) := by
    rw [allocate_step hs ht hp, hf]
    show ((match k.registeredTo with
        | none => M.ub
        | some r => _ : M Unit)) v = _
    rw [hr]
    rfl
  refine ⟨he, ?_⟩
  unfold initInstance
  rw [M.bind_err he]

theorem constructAll_ub {size sz al : Nat} {c : Cell} {os : List Nat} {e : Fail} (h : constructAll size sz al c os = .error e) :
    e = .ub := by
  induction os with
  | nil => cases h
  | cons o os ih =>
    unfold constructAll at h
    split at h
    · split at h
      · cases h
      · rename_i e' he
        cases h
        exact ih he
    · cases h
      rfl

theorem constructMember_ub {size : Nat} {m : Sym} {e : Fail} (h : constructMember size m = .error e) : e = .ub := by
  unfold constructMember at h
  split at h
  · cases h
  · exact constructAll_ub h

theorem construct_ub {size : Nat} {ms : List Sym} {e : Fail} (h : construct size ms = .error e) : e = .ub := by
  induction ms with
  | nil => cases h
  | cons m ms ih =>
    unfold construct at h
    split at h
    · rename_i e' he
      cases h
      exact constructMember_ub he
    · split at h
      · cases h
      · rename_i e' he
        cases h
        exact ih he

/-- **C70** (negation): creating an opaque instance of a class that was not registered as opaque writes outside of its storage,
whenever an object of a member does not fit where the script file says. For every such class. -/
theorem c70_opaque_violation (h : Host) {v : Vm} {self : Option Nat} {t y c : Nat} {k m : Sym} (hy : ClassOf v.syms y c)
    (hk : v.syms[c]? = some k) (hm : m ∈ symsAt v.syms (classMembers v.syms k)) {sz al : Nat} {x : Cell}
    (ho : memberObject m.type = some (sz, al, x)) (hc : 0 < m.count.toNat)
    (hfit : k.classSize.toNat < m.memberOffset.toNat + sz) :
    ∃ N, ∀ fuel, N ≤ fuel → initOpaque h fuel self t (some y) v = (.error .ub, v) := by
  obtain ⟨N, k', h1, h3⟩ := opaqueLoop_ok hy
  rw [hk] at h1
  cases h1
  have hcm : constructMember k.classSize.toNat m = .error .ub := by
    cases he : constructMember k.classSize.toNat m with
    | error e => rw [constructMember_ub he]
    | ok cs =>
      unfold constructMember at he
      rw [ho] at he
      dsimp only at he
      obtain ⟨n, hn⟩ : ∃ n, m.count.toNat = n + 1 := ⟨m.count.toNat - 1, by omega⟩
      rw [hn, List.range_succ_eq_map, List.map_cons] at he
      unfold constructAll at he
      have : ¬ alignUp al (m.memberOffset + BitVec.ofNat 32 (sz * 0)).toNat + sz ≤ k.classSize.toNat := by
        have h0 : (m.memberOffset + BitVec.ofNat 32 (sz * 0)).toNat = m.memberOffset.toNat := by simp
        rw [h0]
        unfold alignUp
        split <;> omega
      rw [if_neg this] at he
      cases he
  have hcon : ∀ ms : List Sym, m ∈ ms → construct k.classSize.toNat ms = .error .ub := by
    intro ms hin
    induction ms with
    | nil => cases hin
    | cons a ms ih =>
      unfold construct
      cases ha : constructMember k.classSize.toNat a with
      | error e => rw [constructMember_ub ha]
      | ok cs =>
        rcases List.mem_cons.mp hin with rfl | hin
        · rw [hcm] at ha
          cases ha
        · rw [ih hin]
  refine ⟨N, fun fuel hl => ?_⟩
  have hf := h3 fuel hl
  have hys : ∃ s, v.syms[y]? = some s := by
    cases hy with
    | here h _ => exact ⟨_, h⟩
    | up h _ _ => exact ⟨_, h⟩
  obtain ⟨s, hys⟩ := hys
  rw [hys] at hf
  unfold initOpaque
  dsimp only
  rw [M.bind_ok (symAt_some hys), M.get_bind, hf]
  show (M.lift (construct k.classSize.toNat _) >>= _) v = _
  rw [hcon _ hm]
  rfl

/-- A class with a string as the original compiler lays it out: 20 bytes for a string. -/
def original : Vm where
  syms := [
    { name := b!"C", type := .class_, index := 0, count := 1, classSize := 20 },
    { name := b!"C.NAME", type := .string, flags := 4, count := 1, parent := 0, memberOffset := 0, index := 1 },
    { name := b!"I", type := .instance, flags := 1, parent := 0, value := .inst none, index := 2, address := 0 },
    { type := .string, count := 1, value := .strs [[]], index := 3 }]
  tmp := 3
  text := assemble { op := .rsr }

/-- The hypotheses hold for it. -/
example : ClassOf original.syms 2 0 ∧ original.syms[1] ∈ symsAt original.syms (classMembers original.syms original.syms[0]) ∧
    original.syms[0].classSize.toNat < original.syms[1].memberOffset.toNat + Sym.strSize :=
  ⟨.up (s := original.syms[2]) rfl (by decide) (.here (s := original.syms[0]) rfl rfl), by decide +kernel, by decide +kernel⟩

/-- After `register_as_opaque` the same works. -/
theorem c70_registered_example :
    (initOpaque {} 5 none 7 (some 2) { original with
      syms := original.syms.mapIdx fun i s => if i = 0 then { s with classSize := 32, registeredTo := some 7 }
        else if i = 1 then { s with registeredTo := some 7 } else s }).1 = .ok 0 := by
  decide +kernel

/-! ## C69: calls from the host -/

/-- **C69** (partial): the arguments of a call are on the stack in order, with their values, on top of what was there. Missing:
more than 243 texts at a time, for which the claim is false (C36), and a full stack. -/
theorem c69_args_partial {v : Vm} {t : Sym} {a : List Bytes} {live : List (Nat × Bytes)} (ht : TmpOk v t a live) {ps : List Nat}
    {args : List Arg} (hf : Fit v.syms ps args) (hn : live.length + texts args ≤ 243) {below : List Frame} (hs : Stk v below)
    (hl : below.length + args.length ≤ stackSize) :
    ∃ w gs, pushArgs ps args v = (.ok (), w) ∧ Stk w (below ++ gs) ∧ gs.length = args.length ∧ PassedAll w gs args := by
  obtain ⟨w, gs, t', a', new, h1, h2, h3, h4, h5, h6⟩ := pushArgs_ok args ht hn hs hl hf
  have := h1 [] []
  rw [List.append_nil, List.append_nil] at this
  refine ⟨w, gs, this, h3, h4, PlacedAll.passed h5 ?_⟩
  rw [h2.tmp]
  exact h6

/-- **C69**: a call that returns was checked: the function has as many parameters as there were arguments, each of a type its
argument can be given for, and a result of the type the host asked for. -/
theorem c69_checked (h : Host) (fuel y : Nat) (args : List Arg) (r : RType) (v w : Vm) (x : RVal)
    (hx : callFunction h fuel (some y) args r v = (.ok x, w)) :
    ∃ f, v.syms[y]? = some f ∧ f.type = .function ∧ f.count.toNat = args.length ∧ (∀ l, Expected r = some l → f.rtype ∈ l) ∧
      Fit v.syms (List.range' (f.index.toNat + 1) f.count.toNat) args := by
  obtain ⟨z, f, u, u', hz, hf, hty, hcount, hfit, h1, -, -⟩ := callFunction_inv hx
  cases hz
  exact ⟨f, hf, hty, hcount, (RType.fits_iff r _).mp hfit, pushArgs_fit _ (by simp [hcount]) h1⟩

/-- **C69**: whatever function the host calls with whatever arguments: when the call returns, the machine is as before. Exactly
the arguments were on top of the stack when the function started, and the host gets what it left. For code as a compiler emits
it, with any number of calls inside. -/
theorem c69_call (h : Host) (hb : Balanced h) (H : BitVec 32 → Option Nat) (v w : Vm) (hc : Compiled h v H) (fuel y : Nat)
    (f : Sym) (hy : v.syms[y]? = some f) (hcl : Callable H f) (hd : Declared f) (args : List Arg) (r : RType) (x : RVal)
    (below : List Frame) (hs : Stk v below) (hx : callFunction h fuel (some y) args r v = (.ok x, w)) :
    w.pc = v.pc ∧ w.instance_ = v.instance_ ∧ w.calls = v.calls ∧ Stk w below ∧
    ∃ u gs u' rs, Stk u (below ++ gs) ∧ gs.length = args.length ∧ unsafeCall h fuel y u = (.ok (), u') ∧
      Stk u' (below ++ rs) ∧ rs.length = (if f.hasReturn then 1 else 0) ∧ ∀ g ∈ rs, Returned u' g r x := by
  obtain ⟨z, f', u, u', hz, hf', hty, hcount, hfit, h1, h2, h3⟩ := callFunction_inv hx
  cases hz
  rw [hy] at hf'
  cases hf'
  have hyt : y ≠ v.tmp := by
    intro he
    rw [he] at hy
    have := hc.tmp f hy
    rw [hty] at this
    cases this
  have k1 : Keeps v u := by
    have := Kp.pushArgs (List.range' (f.index.toNat + 1) f.count.toNat) args v
    unfold KpAt at this
    rw [h1] at this
    exact this
  obtain ⟨gs, hgl, hgs⟩ := Eff.pushArgs (List.range' (f.index.toNat + 1) f.count.toNat) args 0 (by simp [hcount]) v below [] () u h1
    (by simpa using hs) rfl
  rw [Nat.zero_add] at hgl
  obtain ⟨k2, hflow⟩ := unsafeCall_flow hc hb fuel y f u u' hy hyt hcl k1.toSame h2
  obtain ⟨rs, hrl, hrs⟩ := hflow below gs hgs (by omega)
  have k3 : Keeps u' w := by
    have := Kp.popRet f r u'
    unfold KpAt at this
    rw [h3] at this
    exact this
  obtain ⟨os, hol, hos⟩ := Eff.popRet hd hfit u' below rs x w h3 hrs hrl
  rw [List.length_eq_zero_iff.mp hol, List.append_nil] at hos
  refine ⟨by rw [k3.pc, k2.pc, k1.pc], by rw [k3.instance_, k2.instance_, k1.instance_], by rw [k3.calls, k2.calls, k1.calls], hos,
    u, gs, u', rs, hgs, hgl, h2, hrs, hrl, fun g hg => ?_⟩
  unfold results at hrl
  cases hh : f.hasReturn with
  | false =>
    rw [hh] at hrl
    have : rs.length = 0 := hrl
    rw [List.length_eq_zero_iff.mp this] at hg
    cases hg
  | true =>
    rw [hh] at hrl
    obtain ⟨g', rfl⟩ := List.length_eq_one_iff.mp (show rs.length = 1 from hrl)
    rw [List.mem_singleton] at hg
    subst hg
    exact popRet_inv hfit (hd.mp hh) hrs h3

/-- The hypotheses hold for the example of C33. -/
example : Declared { name := b!"ADD", type := .function, flags := 3, address := 17, index := 1, count := 2, rtype := .int } := by
  unfold Declared
  decide +kernel
example : Callable adderHeights { name := b!"ADD", type := .function, flags := 3, address := 17, index := 1, count := 2, rtype := .int } :=
  ⟨by decide, fun _ => trivial⟩
example : (callFunction {} 9 (some 1) [.int 30, .int 12] .int adder).1 = .ok (.int 42) := by decide +kernel

/-- **C69**: `init_instance` and `init_opaque_instance` restore the current instance, `SELF`, the position and the call stack
when the script returns. For every byte code. -/
theorem c69_init (h : Host) (hb : Balanced h) (fuel : Nat) (self : Option Nat) (a y : Nat) (v w : Vm)
    (hx : initCall h fuel self a y v = (.ok (), w)) :
    w.pc = v.pc ∧ w.instance_ = v.instance_ ∧ w.calls = v.calls ∧
    ∀ s, self = some s → ∃ q, symGetInstance s v = (.ok q, v) ∧ symGetInstance s w = (.ok q, w) := by
  unfold initCall at hx
  rw [M.get_bind] at hx
  obtain ⟨q, u0, h0, hx1⟩ := M.bind_inv hx
  have e0 : u0 = v := by
    cases self with
    | none => cases h0; rfl
    | some s => exact ReadOnly.inv (ReadOnly.symGetInstance s) h0
  subst e0
  rw [M.set_bind] at hx1
  obtain ⟨_, u1, h1, hx2⟩ := M.bind_inv hx1
  have k1 : Keeps { u0 with instance_ := some a } u1 := by
    cases self with
    | none => cases h1; exact Keeps.refl _
    | some s =>
      have := Kp.symSetInstance s (some a) { u0 with instance_ := some a }
      unfold KpAt at this
      rw [show symSetInstance s (some a) { u0 with instance_ := some a } = _ from h1] at this
      exact this
  obtain ⟨_, u2, h2, hx3⟩ := M.bind_inv hx2
  have k2 := unsafeCall_keeps hb fuel y h2
  rw [M.get_bind, M.set_bind] at hx3
  have hpc : u2.pc = u0.pc := by rw [k2.pc, k1.pc]
  have hcalls : u2.calls = u0.calls := by rw [k2.calls, k1.calls]
  cases self with
  | none =>
    cases hx3
    exact ⟨hpc, rfl, hcalls, fun s hs => by cases hs⟩
  | some s =>
    have hx3 : symSetInstance s q { u2 with instance_ := u0.instance_ } = (.ok (), w) := hx3
    have h0 : symGetInstance s u0 = (.ok q, u0) := h0
    have k3 : Keeps { u2 with instance_ := u0.instance_ } w := by
      have := Kp.symSetInstance s q { u2 with instance_ := u0.instance_ }
      unfold KpAt at this
      rw [hx3] at this
      exact this
    refine ⟨by rw [k3.pc]; exact hpc, k3.instance_, by rw [k3.calls]; exact hcalls, fun s' hs => ?_⟩
    cases hs
    refine ⟨q, h0, ?_⟩
    unfold symSetInstance at hx3
    obtain ⟨z, u3, h3, hx4⟩ := M.bind_inv hx3
    have e3 := ReadOnly.inv (ReadOnly.symAt s) h3
    subst e3
    have hz : u2.syms[s]? = some z := by
      rw [symAt_eq] at h3
      cases hs : u2.syms[s]? with
      | none => simp only [hs] at h3; cases h3
      | some z' => simp only [hs] at h3; cases h3; rfl
    unfold Sym.setInstance at hx4
    by_cases hty : z.type ≠ .instance
    · rw [if_pos hty] at hx4
      cases hx4
    · rw [if_neg hty] at hx4
      cases hval : z.value with
      | inst p =>
        rw [hval] at hx4
        have hw : w = { u2 with instance_ := u0.instance_, syms := u2.syms.set s { z with value := .inst q } } := by
          cases hx4
          rfl
        have hsl : s < u2.syms.length := (List.getElem?_eq_some_iff.mp hz).1
        have hws : w.syms[s]? = some { z with value := .inst q } := by
          rw [hw]
          exact List.getElem?_set_self hsl
        unfold symGetInstance
        rw [M.bind_ok (symAt_some hws)]
        have : Sym.getInstance { z with value := .inst q } = .ok q := by
          unfold Sym.getInstance
          rw [if_neg (by simpa using hty)]
        rw [this]
        rfl
      | ints o => rw [hval] at hx4; cases hx4
      | floats o => rw [hval] at hx4; cases hx4
      | strs o => rw [hval] at hx4; cases hx4

/-- **C69** (negation): when an argument is refused, the ones before it stay on the stack. For every function and every call. -/
theorem c69_refused_violation (h : Host) (fuel : Nat) {v : Vm} {t : Sym} {a : List Bytes} {live : List (Nat × Bytes)}
    (ht : TmpOk v t a live) {y : Nat} {f s : Sym} (hy : v.syms[y]? = some f) (hty : f.type = .function) {r : RType}
    (hr : ∀ l, Expected r = some l → f.rtype ∈ l) {good bad : List Arg} {x : Arg} {ps ps' : List Nat} {p : Nat}
    (hps : List.range' (f.index.toNat + 1) f.count.toNat = ps ++ p :: ps') (hlen : ps'.length = bad.length)
    (hin : f.index.toNat + f.count.toNat + 1 ≤ v.syms.length) (hg : Fit v.syms ps good) (hp : v.syms[p]? = some s)
    (hx : s.type ∉ Accepted x) (hpt : p ≠ v.tmp) (hn : live.length + texts good ≤ 243) {below : List Frame} (hs : Stk v below)
    (hl : below.length + good.length ≤ stackSize) :
    ∃ w gs, callFunction h fuel (some y) (good ++ x :: bad) r v = (.error (.throw .daedalusExternal), w) ∧
      Stk w (below ++ gs) ∧ gs.length = good.length := by
  obtain ⟨w, gs, t', a', new, h1, h2, h3, h4, h5, h6⟩ := pushArgs_ok good ht hn hs hl hg
  refine ⟨w, gs, ?_, h3, h4⟩
  have hps' : params f v = (.ok (ps ++ p :: ps'), v) := by
    unfold params
    rw [M.get_bind, if_neg (by omega), hps]
    rfl
  unfold callFunction
  dsimp only
  rw [M.bind_ok (symAt_some hy), if_neg (by rw [hty]; simp), M.bind_ok hps',
    if_neg (by simp [Verif.Daedalus.Fit.length hg, hlen]), if_neg (by rw [(RType.fits_iff r _).mpr hr]; simp)]
  have hps2 : w.syms[p]? = some s := by
    obtain ⟨z, hz⟩ := h2
    have e : w.syms = v.syms.set v.tmp z := by rw [hz]
    rw [e, List.getElem?_set_ne (Ne.symm hpt)]
    exact hp
  have : pushArgs (ps ++ p :: ps') (good ++ x :: bad) v = (.error (.throw .daedalusExternal), w) := by
    rw [h1]
    show (symAt p >>= _) w = _
    rw [M.bind_ok (symAt_some hps2), if_neg (fun e => hx ((Arg.fits_iff x _).mp e))]
    rfl
  rw [M.bind_err this]

/-- A call with an argument that is refused. -/
example : (callFunction {} 9 (some 1) [.int 30, .float 0] .int adder).1 = .error (.throw .daedalusExternal) ∧
    (callFunction {} 9 (some 1) [.int 30, .float 0] .int adder).2.sp = 2 := by decide +kernel

/-- **C69** (negation): an exception out of the script leaves the arguments and the call on the stacks, and the position where
it happened. -/
theorem c69_exception_violation :
    let r := callFunction { external := fun _ => some (M.throw .daedalusVm) } 9 (some 0) [.int 3] .void
      { syms := [
          { name := b!"F", type := .function, flags := 1, address := 0, index := 0, count := 1 },
          { name := b!"F.X", type := .int, index := 1, count := 1, value := .ints (some [some 0]) },
          { name := b!"E", type := .function, flags := 9, index := 2 },
          { type := .string, count := 1, value := .strs [[]], index := 3 }],
        tmp := 3, text := assemble { op := .nop } ++ assemble { op := .be, symbol := 2, size := 5 } ++ assemble { op := .rsr } }
    r.1 = .error (.throw .daedalusVm) ∧ r.2.sp = 1 ∧ r.2.calls.length = 2 ∧ r.2.pc = 1 := by
  decide +kernel

/-- A machine with an instance and `SELF`. -/
def initVm : Vm where
  syms := [
    { name := b!"I", type := .instance, flags := 1, value := .inst none, index := 0, address := 0 },
    { name := b!"SELF", type := .instance, value := .inst none, index := 1 },
    { name := b!"E", type := .function, flags := 9, index := 2 },
    { type := .string, count := 1, value := .strs [[]], index := 3 }]
  heap := [{ type := some 7, symIndex := 0, cells := [] }]
  tmp := 3
  text := assemble { op := .be, symbol := 2, size := 5 } ++ assemble { op := .rsr }

/-- **C69** (negation): after an exception the instance stays the current one and the value of `SELF`. -/
theorem c69_init_violation :
    let r := initCall { external := fun _ => some (M.throw .daedalusVm) } 9 (some 1) 0 0 initVm
    r.1 = .error (.throw .daedalusVm) ∧ r.2.instance_ = some 0 ∧ (r.2.syms[1]?).map Sym.value = some (.inst (some 0)) := by
  decide +kernel

example : (initCall { external := fun _ => some (Pure.pure ()) } 9 (some 1) 0 0 initVm).1 = .ok () := by decide +kernel

/-- **C69** (negation): a call for a `DaedalusFunction` does not return a value, whenever the script returns. -/
theorem c69_func_violation (h : Host) (fuel : Nat) {v u u' : Vm} {y : Nat} {f : Sym} {args : List Arg} (hy : v.syms[y]? = some f)
    (hty : f.type = .function) (hr : f.rtype = .int ∨ f.rtype = .function) (hc : f.count.toNat = args.length)
    (hin : f.index.toNat + f.count.toNat + 1 ≤ v.syms.length)
    (hp : pushArgs (List.range' (f.index.toNat + 1) f.count.toNat) args v = (.ok (), u)) (hx : unsafeCall h fuel y u = (.ok (), u')) :
    (callFunction h fuel (some y) args .func v).1 = .error .ub := by
  have hps' : params f v = (.ok (List.range' (f.index.toNat + 1) f.count.toNat), v) := by
    unfold params
    rw [M.get_bind, if_neg (by omega)]
    rfl
  have hfit : RType.fits .func f.rtype = true := by rcases hr with h | h <;> rw [h] <;> rfl
  unfold callFunction
  dsimp only
  rw [M.bind_ok (symAt_some hy), if_neg (by rw [hty]; simp), M.bind_ok hps', if_neg (by simp [hc]), if_neg (by rw [hfit]; simp),
    M.bind_ok hp, M.bind_ok hx]
  rfl

/-- A function that returns a text of the host. -/
def texter : Vm where
  syms := [
    { name := b!"F", type := .function, flags := 3, address := 0, index := 0, rtype := .string },
    { name := b!"E", type := .function, flags := 11, index := 1, rtype := .string },
    { type := .string, count := 1, value := .strs [[]], index := 2 }]
  tmp := 2
  text := assemble { op := .be, symbol := 1, size := 5 } ++ assemble { op := .rsr }

/-- The host calls it and ignores what it returns. -/
def ignoring : Nat → M Unit
  | 0 => return ()
  | n + 1 => do
    let _ ← callFunction { external := fun _ => some (pushString b!"a") } 9 (some 0) [] .ignore
    ignoring n

/-- **C69** (negation): ignoring a text keeps its place in use. After 243 such calls every further text is lost: the next call
returns another one. -/
theorem c69_ignore_violation :
    let r := ignoring 243 texter
    r.1 = .ok () ∧ (callFunction { external := fun _ => some (pushString b!"b") } 9 (some 0) [] .str texter).1 = .ok (.str b!"b") ∧
    (callFunction { external := fun _ => some (pushString b!"b") } 9 (some 0) [] .str r.2).1 = .ok (.str b!"a") := by
  decide +kernel

end Verif.Props
