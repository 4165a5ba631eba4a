import Verif.Wiring.PtrModel
import Verif.Wiring.SpecProps
/-
C19: the order of pointer modifiers.
-/
namespace Verif.Wiring
variable {T B P : Type}

/-! ### Specification -/

/-- The name under which a client-side modifier finds what comes after it. -/
def nextOf (modifier : Name) : Name := modifier ++ ".ptr.src.next"

/-- The client-side modifiers, in the order they were added. -/
def srcMods (ops : List (POp T B P)) : List Name :=
  ops.filterMap fun o => match o with
    | .src m => some m
    | _ => none

/-- The server-side modifiers, in the order they were added; an address stands for
what it points to. -/
def dstMods (ops : List (POp T B P)) : List Name :=
  ops.filterMap fun o => match o with
    | .dst m _ => some m
    | .addr _ p => some p
    | _ => none

/-- Where the client side meets the server side: the last address or interface
modifier that was added, else the wrapped destination. -/
def interfaceOf (dst : Name) (ops : List (POp T B P)) : Name :=
  ((ops.filterMap fun o => match o with
    | .dst m true => some m
    | .addr a _ => some a
    | _ => none).getLast?).getD dst

/-- Following the aliases from `start`, one finds the modifiers `ms`, each at the name
given to the one before, and finally `stop`. -/
inductive Chain (s : Spec T B P) : Name → List Name → Name → Prop where
  | nil {a stop : Name} : s.getAlias a = some stop → Chain s a [] stop
  | cons {a m stop : Name} {ms : List Name} : s.getAlias a = some m → Chain s (nextOf m) ms stop →
      Chain s a (m :: ms) stop

/-- The names reserved for the client-side chain of a pointer. -/
def reserved (name : Name) (ops : List (POp T B P)) : List Name :=
  (name ++ ".src") :: (srcMods ops).map nextOf

/-- Nobody else uses the reserved names, and no modifier is added twice. -/
def Clean (name : Name) (ops : List (POp T B P)) : Prop :=
  (reserved name ops).Nodup ∧ ∀ op, .other op ∈ ops → op.name ∉ reserved name ops

/-! ### Proofs -/

theorem getAlias_alias (s : Spec T B P) (a p j : Name) :
    (s.step (.alias a p)).getAlias j = if j = a then some p else s.getAlias j := by
  simp only [Spec.step, Spec.getAlias, GoMap.get_set]

theorem getAlias_other (s : Spec T B P) (op : Op T B P) (j : Name) (h : op.name ≠ j) :
    (s.step op).getAlias j = s.getAlias j := by
  have hj : ¬ j = op.name := fun e => h e.symm
  cases op with
  | define n t b st =>
    simp only [Spec.step, Spec.getAlias, update_aliases]
    rw [if_neg (fun e => hj e.1)]
  | alias a p => rw [getAlias_alias, if_neg (by exact hj)]
  | setProperty n k v =>
    simp only [Spec.step, Spec.getAlias, update_aliases]
    rw [if_neg (fun e => hj e.1)]
  | addProperty n k v =>
    simp only [Spec.step, Spec.getAlias, update_aliases]
    rw [if_neg (fun e => hj e.1)]

/-- The names from which a chain is read. -/
def chainNames (a : Name) : List Name → List Name
  | [] => [a]
  | m :: ms => a :: chainNames (nextOf m) ms

theorem chainNames_eq (a : Name) (ms : List Name) : chainNames a ms = a :: ms.map nextOf := by
  induction ms generalizing a with
  | nil => rfl
  | cons m ms ih => simp [chainNames, ih]

/-- The last name of a chain. -/
def chainTail (a : Name) : List Name → Name
  | [] => a
  | m :: ms => chainTail (nextOf m) ms

theorem chainTail_mem (a : Name) (ms : List Name) : chainTail a ms ∈ chainNames a ms := by
  induction ms generalizing a with
  | nil => simp [chainTail, chainNames]
  | cons m ms ih => simp only [chainTail, chainNames]; exact List.mem_cons_of_mem _ (ih _)

theorem chainTail_concat (a m : Name) (ms : List Name) : chainTail a (ms ++ [m]) = nextOf m := by
  induction ms generalizing a with
  | nil => rfl
  | cons x ms ih => simp only [List.cons_append, chainTail]; exact ih _

theorem Chain.other {s : Spec T B P} {op : Op T B P} {a stop : Name} {ms : List Name}
    (h : Chain s a ms stop) (hn : op.name ∉ chainNames a ms) : Chain (s.step op) a ms stop := by
  induction h with
  | nil he =>
    refine .nil ?_
    rw [getAlias_other _ _ _ (fun e => hn (by simp [chainNames, e]))]; exact he
  | cons he _ ih =>
    refine .cons ?_ (ih fun e => hn (by simp only [chainNames]; exact List.mem_cons_of_mem _ e))
    rw [getAlias_other _ _ _ (fun e => hn (by simp [chainNames, e]))]; exact he

/-- Redirecting the last name of the chain. -/
theorem Chain.redirect {s : Spec T B P} {a stop stop' : Name} {ms : List Name}
    (h : Chain s a ms stop) (hn : (chainNames a ms).Nodup) :
    Chain (s.step (.alias (chainTail a ms) stop')) a ms stop' := by
  induction h with
  | nil he => exact .nil (by rw [getAlias_alias]; simp [chainTail])
  | @cons a m stop ms he h ih =>
    simp only [chainNames, List.nodup_cons] at hn
    refine .cons ?_ (ih hn.2)
    rw [getAlias_alias, if_neg]
    · exact he
    · intro e
      simp only [chainTail] at e
      exact hn.1 (by rw [e]; exact chainTail_mem _ _)

/-- Appending a modifier at the end of the chain. -/
theorem Chain.append {s : Spec T B P} {a m stop : Name} {ms : List Name}
    (h : Chain s a ms m) (hs : s.getAlias (nextOf m) = some stop) :
    Chain s a (ms ++ [m]) stop := by
  induction ms generalizing a with
  | nil => cases h with | nil he => exact .cons he (.nil hs)
  | cons x ms ih => cases h with | cons he h => exact .cons he (ih h)

theorem ptrRun_concat (s : Spec T B P × Ptr) (ops : List (POp T B P)) (o : POp T B P) :
    ptrRun s (ops ++ [o]) = (ptrStep (ptrRun s ops) o).1 := by
  simp [ptrRun, List.foldl_append]

theorem srcMods_concat (ops : List (POp T B P)) (o : POp T B P) :
    srcMods (ops ++ [o]) = srcMods ops ++ srcMods [o] := List.filterMap_append

theorem dstMods_concat (ops : List (POp T B P)) (o : POp T B P) :
    dstMods (ops ++ [o]) = dstMods ops ++ dstMods [o] := List.filterMap_append

theorem interfaceOf_concat (dst : Name) (ops : List (POp T B P)) (o : POp T B P) :
    interfaceOf dst (ops ++ [o]) = match o with
      | .dst m true => m
      | .addr a _ => a
      | _ => interfaceOf dst ops := by
  unfold interfaceOf
  rw [List.filterMap_append]
  cases o with
  | src m => simp
  | dst m i => cases i <;> simp
  | addr a p => simp
  | other op => simp

theorem Clean.prefix {name : Name} {ops : List (POp T B P)} {o : POp T B P}
    (h : Clean name (ops ++ [o])) : Clean name ops := by
  obtain ⟨h1, h2⟩ := h
  have hsub : (reserved name ops).Sublist (reserved name (ops ++ [o])) := by
    unfold reserved
    rw [srcMods_concat, List.map_append]
    exact (List.sublist_append_left _ _).cons_cons _
  exact ⟨h1.sublist hsub, fun op hop hm => h2 op (List.mem_append_left _ hop) (hsub.subset hm)⟩

/-- Everything about a pointer after some operations. -/
theorem ptr_inv (spec0 : Spec T B P) (ptr0 : Ptr) (name dst : Name)
    (h0 : ptr0.srcHead = name ++ ".src" ∧ ptr0.srcTail = name ++ ".src" ∧
      ptr0.interfaceNode = dst ∧ ptr0.dstHead = dst ∧ ptr0.dstModifiers = [dst] ∧
      ptr0.srcModifiers = [])
    (ha : spec0.getAlias (name ++ ".src") = some dst) (ops : List (POp T B P))
    (hc : Clean name ops) :
    let s := ptrRun (spec0, ptr0) ops
    Chain s.1 (name ++ ".src") (srcMods ops) (interfaceOf dst ops) ∧
    s.2.srcHead = name ++ ".src" ∧ s.2.srcModifiers = srcMods ops ∧
    s.2.srcTail = chainTail (name ++ ".src") (srcMods ops) ∧
    s.2.interfaceNode = interfaceOf dst ops ∧
    s.2.dstModifiers = (dstMods ops).reverse ++ [dst] ∧
    s.2.dstModifiers.head? = some s.2.dstHead := by
  induction ops using concat_induction with
  | nil =>
    obtain ⟨a, b, c, d, e, f⟩ := h0
    refine ⟨.nil ha, a, f, b, c, e, ?_⟩
    show ptr0.dstModifiers.head? = some ptr0.dstHead
    rw [e, d]; rfl
  | append ops o ih =>
    obtain ⟨ih1, ih2, ih3, ih4, ih5, ih6, ih7⟩ := ih hc.prefix
    simp only [] at ih1 ih2 ih3 ih4 ih5 ih6 ih7 ⊢
    rw [ptrRun_concat, srcMods_concat, dstMods_concat, interfaceOf_concat]
    generalize ptrRun (spec0, ptr0) ops = s at *
    have hnd : (chainNames (name ++ ".src") (srcMods ops)).Nodup := by
      rw [chainNames_eq]; exact hc.prefix.1
    cases o with
    | src m =>
      have hm1 : srcMods [(POp.src m : POp T B P)] = [m] := rfl
      have hd1 : dstMods [(POp.src m : POp T B P)] = [] := rfl
      simp only [ptrStep, Ptr.addSrc, hm1, hd1, List.append_nil]
      have hfresh : nextOf m ∉ chainNames (name ++ ".src") (srcMods ops) := by
        have := hc.1
        unfold reserved at this
        rw [srcMods_concat, hm1, List.map_append, ← List.cons_append] at this
        rw [chainNames_eq]
        intro hmem
        exact (List.nodup_append.1 this).2.2 _ hmem _ (by simp) rfl
      refine ⟨?_, ih2, by rw [ih3], ?_, ih5, ih6, ih7⟩
      · rw [ih4, ih5]
        refine Chain.append (m := m) ?_ ?_
        · exact (ih1.redirect hnd).other hfresh
        · rw [getAlias_alias]; simp [nextOf]
      · rw [chainTail_concat]; rfl
    | dst m i =>
      have hm1 : srcMods [(POp.dst m i : POp T B P)] = [] := rfl
      have hd1 : dstMods [(POp.dst m i : POp T B P)] = [m] := rfl
      simp only [ptrStep, Ptr.addDst, hm1, hd1, List.append_nil]
      cases i with
      | true =>
        simp only [if_true]
        refine ⟨?_, ih2, ih3, ih4, by trivial, by simp [ih6], rfl⟩
        rw [ih4]; exact ih1.redirect hnd
      | false =>
        simp only [if_false, Bool.false_eq_true]
        exact ⟨ih1, ih2, ih3, ih4, ih5, by simp [ih6], rfl⟩
    | addr a p =>
      have hm1 : srcMods [(POp.addr a p : POp T B P)] = [] := rfl
      have hd1 : dstMods [(POp.addr a p : POp T B P)] = [p] := rfl
      simp only [ptrStep, Ptr.addAddr, Ptr.addDst, hm1, hd1, List.append_nil, if_true]
      refine ⟨?_, ih2, ih3, ih4, by trivial, by simp [ih6], rfl⟩
      rw [ih4]; exact (ih1.redirect hnd).redirect hnd
    | other op =>
      have hm1 : srcMods [(POp.other op : POp T B P)] = [] := rfl
      have hd1 : dstMods [(POp.other op : POp T B P)] = [] := rfl
      simp only [ptrStep, hm1, hd1, List.append_nil]
      refine ⟨ih1.other ?_, ih2, ih3, ih4, ih5, ih6, ih7⟩
      rw [chainNames_eq]
      have := hc.2 op (by simp)
      unfold reserved at this
      rw [srcMods_concat, hm1, List.append_nil] at this
      exact this

theorem append_ne_self (name suf : Name) (h : suf ≠ "") : name ++ suf ≠ name := by
  intro e
  have := congrArg String.toList e
  rw [String.toList_append] at this
  have hl := congrArg List.length this
  rw [List.length_append] at hl
  have : suf.toList = [] := List.length_eq_zero_iff.1 (by omega)
  exact h (String.toList_eq_nil_iff.1 this)

theorem append_suffix_ne (name a b : Name) (h : a ≠ b) : name ++ a ≠ name ++ b := by
  intro e
  have := congrArg String.toList e
  rw [String.toList_append, String.toList_append] at this
  exact h (String.toList_inj.1 (List.append_cancel_left this))

/-- The destination that a new pointer wraps: the given one, or the alias that carries
the uniqueness check. -/
def wrapped {α : Type} (uniq : Option α) (name dst : Name) : Name :=
  if uniq.isSome then name ++ ".dst" else dst

theorem create_inv (uniq : Option (Payload T B P × Payload T B P)) (self : Payload T B P) (prop : P)
    (spec : Spec T B P) (name dst : Name) :
    let c := createPointer uniq self prop spec name dst
    (c.2.srcHead = name ++ ".src" ∧ c.2.srcTail = name ++ ".src" ∧
      c.2.interfaceNode = wrapped uniq name dst ∧ c.2.dstHead = wrapped uniq name dst ∧
      c.2.dstModifiers = [wrapped uniq name dst] ∧ c.2.srcModifiers = []) ∧
    c.1.getAlias (name ++ ".src") = some (wrapped uniq name dst) := by
  have hne : name ≠ name ++ ".src" := (append_ne_self name ".src" (by decide)).symm
  cases uniq with
  | none =>
    refine ⟨⟨rfl, rfl, rfl, rfl, rfl, rfl⟩, ?_⟩
    simp only [createPointer]
    rw [getAlias_other _ _ _ (by exact hne), getAlias_other _ _ _ (by exact hne), getAlias_alias]
    simp [wrapped]
  | some u =>
    obtain ⟨md, check⟩ := u
    refine ⟨⟨rfl, rfl, rfl, rfl, rfl, rfl⟩, ?_⟩
    simp only [createPointer]
    rw [getAlias_other _ _ _ (by exact hne), getAlias_other _ _ _ (by exact hne), getAlias_alias]
    simp [wrapped]

/-- C19: after any sequence of modifier calls on a pointer, in any interleaving with
other wiring calls, following the pointer from the client side finds the client-side
modifiers in the order they were added, each at the name that AddSrcModifier returned
to the one before, and then the place where client and server side meet: the address
or interface modifier added last, or the wrapped destination. -/
theorem C19_client_side (uniq : Option (Payload T B P × Payload T B P)) (self : Payload T B P)
    (prop : P) (spec : Spec T B P) (name dst : Name) (ops : List (POp T B P))
    (hc : Clean name ops) :
    Chain (ptrRun (createPointer uniq self prop spec name dst) ops).1 (name ++ ".src")
      (srcMods ops) (interfaceOf (wrapped uniq name dst) ops) := by
  obtain ⟨h0, ha⟩ := create_inv uniq self prop spec name dst
  exact (ptr_inv _ _ name _ h0 ha ops hc).1

/-- C19: the pointer is not redirected by anything: it starts at `name.src`, its
interface is the one above, and its server side is the list of server-side modifiers,
latest added first, ending with the wrapped destination. -/
theorem C19_server_side (uniq : Option (Payload T B P × Payload T B P)) (self : Payload T B P)
    (prop : P) (spec : Spec T B P) (name dst : Name) (ops : List (POp T B P))
    (hc : Clean name ops) :
    let ptr := (ptrRun (createPointer uniq self prop spec name dst) ops).2
    ptr.srcHead = name ++ ".src" ∧ ptr.srcModifiers = srcMods ops ∧
    ptr.interfaceNode = interfaceOf (wrapped uniq name dst) ops ∧
    ptr.dstModifiers = (dstMods ops).reverse ++ [wrapped uniq name dst] := by
  obtain ⟨h0, ha⟩ := create_inv uniq self prop spec name dst
  obtain ⟨-, h1, h2, -, h4, h5, -⟩ := ptr_inv _ _ name _ h0 ha ops hc
  exact ⟨h1, h2, h4, h5⟩

/-- C19: what each call returns.  AddSrcModifier returns the name at which the next
client-side modifier (or the interface) will be found; AddDstModifier and
AddAddrModifier return the server-side modifier they wrap: the one added just before,
or the wrapped destination.  So every modifier leads to exactly one other. -/
theorem C19_returned (uniq : Option (Payload T B P × Payload T B P)) (self : Payload T B P)
    (prop : P) (spec : Spec T B P) (name dst : Name) (ops : List (POp T B P)) (o : POp T B P)
    (hc : Clean name ops) :
    (ptrStep (ptrRun (createPointer uniq self prop spec name dst) ops) o).2 =
      match o with
      | .src m => some (nextOf m)
      | .dst _ _ => some ((dstMods ops).getLast?.getD (wrapped uniq name dst))
      | .addr _ _ => some ((dstMods ops).getLast?.getD (wrapped uniq name dst))
      | .other _ => none := by
  obtain ⟨h0, ha⟩ := create_inv uniq self prop spec name dst
  obtain ⟨-, -, -, -, -, h5, h6⟩ := ptr_inv _ _ name _ h0 ha ops hc
  have hd : (ptrRun (createPointer uniq self prop spec name dst) ops).2.dstHead
      = (dstMods ops).getLast?.getD (wrapped uniq name dst) := by
    have : some (ptrRun (createPointer uniq self prop spec name dst) ops).2.dstHead
        = some ((dstMods ops).getLast?.getD (wrapped uniq name dst)) := by
      rw [← h6, h5]
      cases hl : (dstMods ops).getLast? with
      | none =>
        rw [List.getLast?_eq_none_iff] at hl
        simp [hl]
      | some x => simp [List.head?_append, List.head?_reverse, hl]
    injection this
  cases o with
  | src m => rfl
  | dst m i =>
    simp only [ptrStep, Ptr.addDst, ← hd]
  | addr a p => simp only [ptrStep, Ptr.addAddr, Ptr.addDst, ← hd]
  | other op => rfl

/-- C19: the uniqueness check sits between the pointer and its destination: the
wrapped destination is an alias of the check of what it aliased before. -/
theorem C19_uniqueness_alias (md check self : Payload T B P) (prop : P) (spec : Spec T B P)
    (name dst : Name) :
    (createPointer (some (md, check)) self prop spec name dst).1.getAlias (name ++ ".dst")
      = some (dst ++ ".uniqueness_check") := by
  have h1 : name ≠ name ++ ".dst" := (append_ne_self name ".dst" (by decide)).symm
  have h2 : name ++ ".src" ≠ name ++ ".dst" := append_suffix_ne name _ _ (by decide)
  simp only [createPointer]
  rw [getAlias_other _ _ _ (by exact h1), getAlias_other _ _ _ (by exact h1),
    getAlias_other _ _ _ (by exact h2)]
  unfold requireUniqueness
  rw [getAlias_alias]
  simp only [if_true]
  rw [getAlias_alias]
  simp

/-- A pointer with two client-side and two server-side modifiers behind an address, added
in mixed order. -/
def ptrDemo : List (POp Unit Unit Unit) :=
  [.src "retry", .dst "tracer" true, .other (.define "tracer" () () ()),
    .addr "svc.addr" "svc.grpc", .src "pool", .other (.define "pool" () () ())]

example : Clean "svc" ptrDemo := by
  refine ⟨by decide, ?_⟩
  intro op hop
  simp only [ptrDemo, List.mem_cons, reduceCtorEq, POp.other.injEq, false_or, List.not_mem_nil,
    or_false] at hop
  rcases hop with rfl | rfl <;> decide

example : srcMods ptrDemo = ["retry", "pool"] ∧ dstMods ptrDemo = ["tracer", "svc.grpc"] ∧
    interfaceOf "svc.dst" ptrDemo = "svc.addr" := by decide

example : (ptrRun (createPointer none ⟨(), (), ()⟩ () Spec.new "svc" "svc.handler") ptrDemo).2.dstModifiers
    = ["svc.grpc", "tracer", "svc.handler"] := by decide

/-- C19: the order matters: a server-side modifier added after the address replaces the
address as the interface, so the client side then bypasses the address. -/
theorem C19_address_bypassed_refuted :
    let ops : List (POp Unit Unit Unit) := [.addr "svc.addr" "svc.grpc", .dst "tracer" true]
    let s := ptrRun (createPointer none ⟨(), (), ()⟩ () Spec.new "svc" "svc.handler") ops
    s.1.getAlias "svc.src" = some "tracer" ∧ s.2.dstModifiers = ["tracer", "svc.grpc", "svc.handler"] := by
  decide

/-- C19: a client-side modifier that is added twice is visited only once, although the
pointer lists it twice. -/
theorem C19_added_twice_refuted :
    let ops : List (POp Unit Unit Unit) := [.src "retry", .src "retry"]
    let s := ptrRun (createPointer none ⟨(), (), ()⟩ () Spec.new "svc" "svc.handler") ops
    s.1.getAlias "svc.src" = some "retry" ∧ s.1.getAlias (nextOf "retry") = some "svc.handler" ∧
    s.2.srcModifiers = ["retry", "retry"] := by
  decide

end Verif.Wiring
