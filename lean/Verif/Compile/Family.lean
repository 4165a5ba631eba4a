import Verif.Compile.Table
/-
What the declarations about one service put into the wiring spec, computed without the rest of the wiring spec.
-/
namespace Verif.Compile
open Verif.Wiring (Name Spec Op Ptr Payload createPointer GoMap Def nextOf)

/-- What a wiring spec holds under the names of one service: the entries, the pointer, and the children that were given to namespaces. -/
structure Fam where
  tab : Name → Option Ent
  ptr : Option Ptr
  kids : List (Name × Name)

def Fam.define (f : Fam) (n : Name) (ty : Ty) (k : Kind) : Fam :=
  { f with tab := fun m => if m = n then some (.node ty (some k)) else f.tab m }

def Fam.alias (f : Fam) (a p : Name) : Fam :=
  { f with tab := fun m => if m = a then some (.alias p) else f.tab m }

def Fam.setPtr (f : Fam) (p : Ptr) : Fam := { f with ptr := some p }

def Fam.addSrc (f : Fam) (p : Ptr) (name : Name) (k : Name → Kind) : Fam × Ptr :=
  let p' := { p with srcTail := nextOf name, srcModifiers := p.srcModifiers ++ [name] }
  ((((f.alias p.srcTail name).alias (nextOf name) p.interfaceNode).setPtr p').define name (.level 0) (k (nextOf name)), p')

def Fam.empty : Fam := ⟨fun _ => none, none, []⟩

def Fam.step (T : Name) (f : Fam) : Decl → Fam
  | .service _ ctor args =>
    let h := T ++ ".handler"
    let d := T ++ ".dst"
    let f := f.define h (.level 0) (.handler T ctor args)
    let f := f.alias d h
    let f := f.define (h ++ ".visibility") .app .visibility
    let f := f.define (h ++ ".uniqueness_check") (.level 0) (.check (h ++ ".visibility") h)
    let f := f.alias d (h ++ ".uniqueness_check")
    let f := f.alias (T ++ ".src") d
    let f := f.define T (.level 0) .ptr
    (f.addSrc ⟨T, [], T ++ ".src", T ++ ".src", d, d, [d]⟩ (T ++ ".client") .client).1
  | .wrapClient _ s =>
    match f.ptr with
    | none => f
    | some p => (f.addSrc p (T ++ "." ++ s) .wrap).1
  | .wrapServer _ s =>
    match f.ptr with
    | none => f
    | some p =>
      let m := T ++ "." ++ s
      ((f.alias p.srcTail m).setPtr { p with dstHead := m, interfaceNode := m, dstModifiers := m :: p.dstModifiers }).define m (.level 0)
        (.wrap p.dstHead)
  | .rpc pr _ =>
    match f.ptr with
    | none => f
    | some p =>
      let addr := T ++ pr.addr
      let f := ((f.define addr .app .addr).define (bindName addr) .app .bind).define (dialName addr) .app .dial
      let (f, p) := f.addSrc p (T ++ pr.client) .grpcClient
      let m := T ++ pr.server
      (((f.alias p.srcTail m).alias p.srcTail addr).setPtr { p with dstHead := m, interfaceNode := addr, dstModifiers := m :: p.dstModifiers }).define m
        (.level 0) (.grpcServer p.dstHead addr)
  | .backend _ =>
    let c := T ++ ".ctr"
    let d := T ++ ".dst"
    let a := T ++ ".addr"
    let f := f.define c (.level 2) (.container a)
    let f := f.alias d c
    let f := f.define (c ++ ".visibility") .app .visibility
    let f := f.define (c ++ ".uniqueness_check") (.level 2) (.check (c ++ ".visibility") c)
    let f := f.alias d (c ++ ".uniqueness_check")
    let f := f.alias (T ++ ".src") d
    let f := f.define T (.level 0) .ptr
    let f := ((f.define a .app .addr).define (bindName a) .app .bind).define (dialName a) .app .dial
    let f := (f.alias (T ++ ".src") c).alias (T ++ ".src") a
    (f.addSrc ⟨T, [], T ++ ".src", T ++ ".src", a, c, [c, d]⟩ (T ++ ".client") .grpcClient).1
  | .addTo l x _ =>
    match f.ptr with
    | none => { f with kids := f.kids ++ [(x, T)] }
    | some p =>
      let m := T ++ "." ++ x
      let f := (f.setPtr { p with dstHead := m, dstModifiers := m :: p.dstModifiers }).define m (.level l) (.enter x p.dstHead)
      { f with kids := f.kids ++ [(x, p.dstHead)] }
  | .space _ _ => f

/-- The declarations about service `T`. -/
def declsOf (T : Name) (ds : List Decl) : List Decl := ds.filter fun d => d.about == some T

def famOf (T : Name) (ds : List Decl) : Fam := (declsOf T ds).foldl (Fam.step T) Fam.empty

/-! ### The wiring spec agrees with it -/

/-- On the family of `T` the wiring spec has the entries `g`. -/
structure SS (T : Name) (s : WSpec) (g : Name → Option Ent) : Prop where
  disj : Disj s
  eq : ∀ n, fam n = T.toList → tab s n = g n

theorem SS.define {T : Name} {s : WSpec} {f : Fam} (h : SS T s f.tab) (n : Name) (ty : Ty) (k : Kind) (st : Prop') :
    SS T (s.step (.define n ty k st)) (f.define n ty k).tab := by
  refine ⟨disj_step h.disj _, ?_⟩
  intro m hm
  rw [tab_define h.disj]
  simp only [Fam.define]
  split
  · rfl
  · exact h.eq m hm

theorem SS.alias {T : Name} {s : WSpec} {f : Fam} (h : SS T s f.tab) (a p : Name) : SS T (s.step (.alias a p)) (f.alias a p).tab := by
  refine ⟨disj_step h.disj _, ?_⟩
  intro m hm
  rw [tab_alias]
  simp only [Fam.alias]
  split
  · rfl
  · exact h.eq m hm

theorem SS.away {T : Name} {s : WSpec} {g : Name → Option Ent} (h : SS T s g) (op : Op Ty Kind Prop') (ho : fam op.name ≠ T.toList) :
    SS T (s.step op) g := by
  refine ⟨disj_step h.disj _, ?_⟩
  intro m hm
  rw [tab_other s op (fun e => ho (by rw [e]; exact hm))]
  exact h.eq m hm

theorem SS.setProperty {T : Name} {s : WSpec} {g : Name → Option Ent} (h : SS T s g) {n key : Name} {v : Prop'} {ty : Ty} {k : Option Kind}
    (hf : fam n = T.toList) (hn : g n = some (.node ty k)) : SS T (s.step (.setProperty n key v)) g := by
  refine ⟨disj_step h.disj _, ?_⟩
  intro m hm
  rw [tab_setProperty ((h.eq n hf).trans hn)]
  exact h.eq m hm

theorem SS.setDefine {T : Name} {s : WSpec} {f : Fam} (h : SS T s f.tab) (n key : Name) (v : Prop') (ty : Ty) (k : Kind) (st : Prop') :
    SS T ((s.step (.setProperty n key v)).step (.define n ty k st)) (f.define n ty k).tab := by
  refine ⟨disj_step (disj_step h.disj _) _, ?_⟩
  intro m hm
  rw [tab_define (disj_step h.disj _)]
  simp only [Fam.define]
  split
  · rfl
  · next e => rw [tab_other s _ (by exact fun e' => e e'.symm)]; exact h.eq m hm

/-- The wiring spec has, about service `T`, what `f` says. -/
structure Sim (T : Name) (w : Wired) (f : Fam) : Prop where
  ss : SS T w.spec f.tab
  none : f.ptr = none → ∀ q, w.spec.getProperty T "ptr" ≠ .value (.ptr q)
  prop : ∀ p, f.ptr = some p → w.spec.getProperty T "ptr" = .value (.ptr T)
  ptr : ∀ p, f.ptr = some p → w.ptrs.get T = some p
  tail : ∀ p, f.ptr = some p → fam p.srcTail = T.toList ∧ p.srcTail ≠ T

theorem Sim.getPtr {T : Name} {w : Wired} {f : Fam} (h : Sim T w f) : w.getPtr T = f.ptr := by
  cases e : f.ptr with
  | none =>
    unfold Wired.getPtr
    have := h.none e
    split
    · next q hq => exact absurd hq (this q)
    · rfl
  | some p =>
    unfold Wired.getPtr
    rw [h.prop p e]
    exact h.ptr p e

theorem sub_ne (T s : Name) : T ++ "." ++ s ≠ T := by
  rw [String.append_assoc]
  refine Wiring.append_ne_self T _ ?_
  intro e
  have := congrArg String.toList e
  rw [String.toList_append] at this
  cases this

theorem dotfix_ne (T s : Name) (hs : s ≠ "") : T ++ s ≠ T := Wiring.append_ne_self T s hs

theorem fam_next {T m : Name} (hd : '.' ∈ m.toList) (h : fam m = T.toList) : fam (nextOf m) = T.toList := by
  unfold nextOf
  rw [fam_append hd]
  exact h

theorem dot_mem (T s : Name) : '.' ∈ (T ++ "." ++ s).toList := by
  rw [String.toList_append, String.toList_append]
  simp

theorem next_ne {T m : Name} (hd : Dotless T) (h : '.' ∈ m.toList) : nextOf m ≠ T := by
  intro e
  refine hd ?_
  rw [← e]
  unfold nextOf
  rw [String.toList_append]
  exact List.mem_append_left _ h

theorem dots_mem {T s : Name} (h : '.' ∈ s.toList) : '.' ∈ (T ++ s).toList := by
  rw [String.toList_append]
  exact List.mem_append_right _ h

/-- What the names of an address's bind and dial configs have before `bind_addr` and `dial_addr`. -/
def Proto.stem : Proto → Name
  | .grpc => ".grpc"
  | .http => ".http"
  | .thrift => ".thrift"

theorem Proto.addr_dot (pr : Proto) : '.' ∈ pr.addr.toList := by cases pr <;> decide
theorem Proto.client_dot (pr : Proto) : '.' ∈ pr.client.toList := by cases pr <;> decide
theorem Proto.server_dot (pr : Proto) : '.' ∈ pr.server.toList := by cases pr <;> decide
theorem Proto.addr_head (pr : Proto) : pr.addr.toList.head? = some '.' := by cases pr <;> rfl
theorem Proto.client_head (pr : Proto) : pr.client.toList.head? = some '.' := by cases pr <;> rfl
theorem Proto.server_head (pr : Proto) : pr.server.toList.head? = some '.' := by cases pr <;> rfl
theorem Proto.bind_head (pr : Proto) : (pr.stem ++ ".bind_addr").toList.head? = some '.' := by cases pr <;> rfl
theorem Proto.dial_head (pr : Proto) : (pr.stem ++ ".dial_addr").toList.head? = some '.' := by cases pr <;> rfl
theorem Proto.addr_eq (pr : Proto) : pr.addr = pr.stem ++ ".addr" := by cases pr <;> rfl

theorem bindName_addr (pr : Proto) (T : Name) : bindName (T ++ pr.addr) = T ++ (pr.stem ++ ".bind_addr") := by
  have h1 : (T ++ pr.addr).toList = (T ++ pr.stem).toList ++ ".addr".toList := by
    rw [← String.toList_append, String.append_assoc, Proto.addr_eq]
  unfold bindName
  rw [h1, (Address.C22_conventional_names _).1, ← String.toList_append, String.ofList_toList, String.append_assoc]

theorem dialName_addr (pr : Proto) (T : Name) : dialName (T ++ pr.addr) = T ++ (pr.stem ++ ".dial_addr") := by
  have h1 : (T ++ pr.addr).toList = (T ++ pr.stem).toList ++ ".addr".toList := by
    rw [← String.toList_append, String.append_assoc, Proto.addr_eq]
  unfold dialName
  rw [h1, (Address.C22_conventional_names _).2, ← String.toList_append, String.ofList_toList, String.append_assoc]

theorem bindName_ctr (T : Name) : bindName (T ++ ".addr") = T ++ ".bind_addr" := by
  unfold bindName
  rw [String.toList_append, (Address.C22_conventional_names _).1, ← String.toList_append, String.ofList_toList]

theorem dialName_ctr (T : Name) : dialName (T ++ ".addr") = T ++ ".dial_addr" := by
  unfold dialName
  rw [String.toList_append, (Address.C22_conventional_names _).2, ← String.toList_append, String.ofList_toList]

theorem sim_some {T : Name} {w : Wired} {f : Fam} {p : Ptr} (ss : SS T w.spec f.tab)
    (hprop : w.spec.getProperty T "ptr" = .value (.ptr T)) (hptr : w.ptrs.get T = some p) (hf : f.ptr = some p)
    (ht : fam p.srcTail = T.toList ∧ p.srcTail ≠ T) : Sim T w f := by
  refine ⟨ss, fun e => ?_, fun q e => hprop, fun q e => ?_, fun q e => ?_⟩
  · rw [hf] at e; cases e
  · rw [hf] at e; cases e; exact hptr
  · rw [hf] at e; cases e; exact ht

theorem prop_off {T : Name} {s : WSpec} (h : s.getProperty T "ptr" = .value (.ptr T)) (op : Op Ty Kind Prop') (ho : op.name ≠ T) :
    (s.step op).getProperty T "ptr" = .value (.ptr T) := by rw [getProperty_other s op ho]; exact h

theorem prop_alias {T : Name} {s : WSpec} (h : s.getProperty T "ptr" = .value (.ptr T)) {a q : Name} (ho : a ≠ T) :
    (s.step (.alias a q)).getProperty T "ptr" = .value (.ptr T) := prop_off h (.alias a q) ho

theorem prop_define {T : Name} {s : WSpec} (h : s.getProperty T "ptr" = .value (.ptr T)) {a : Name} {ty : Ty} {k : Kind} {st : Prop'}
    (ho : a ≠ T) : (s.step (.define a ty k st)).getProperty T "ptr" = .value (.ptr T) := prop_off h (.define a ty k st) ho

theorem prop_add {T : Name} {s : WSpec} (h : s.getProperty T "ptr" = .value (.ptr T)) {a key : Name} {v : Prop'}
    (ho : a ≠ T) : (s.step (.addProperty a key v)).getProperty T "ptr" = .value (.ptr T) := prop_off h (.addProperty a key v) ho

theorem prop_set {T : Name} {s : WSpec} (h : s.getProperty T "ptr" = .value (.ptr T)) {a key : Name} {v : Prop'}
    (ho : a ≠ T) : (s.step (.setProperty a key v)).getProperty T "ptr" = .value (.ptr T) := prop_off h (.setProperty a key v) ho

theorem sub_dot_ne {T s : Name} (hd : Dotless T) (hs : '.' ∈ s.toList) : T ++ s ≠ T := by
  intro e
  refine hd ?_
  have := dots_mem (T := T) hs
  rw [e] at this
  exact this

theorem next_tail {T m : Name} (hd : Dotless T) (h : '.' ∈ m.toList) (hm : fam m = T.toList) :
    fam (nextOf m) = T.toList ∧ nextOf m ≠ T := ⟨fam_next h hm, next_ne hd h⟩

theorem SS.setPtr {T : Name} {s : WSpec} {f : Fam} (h : SS T s f.tab) (p : Ptr) : SS T s (f.setPtr p).tab := h

theorem SS.setPropertyF {T : Name} {s : WSpec} {f : Fam} (h : SS T s f.tab) {n key : Name} {v : Prop'} {ty : Ty} {k : Option Kind}
    (hf : fam n = T.toList) (hn : f.tab n = some (.node ty k)) : SS T (s.step (.setProperty n key v)) f.tab := h.setProperty hf hn

theorem getPtr_set {T : Name} {m : GoMap Ptr} {p : Ptr} : (m.set T p).get T = some p := by rw [GoMap.get_set, if_pos rfl]

theorem sim_service {T : Name} (hd : Dotless T) {w : Wired} {f : Fam} (h : Sim T w f) (ctor : List Bool) (args : List Name) :
    Sim T (w.step (.service T ctor args)) (f.step T (.service T ctor args)) := by
  have e1 : ((w.define (T ++ ".handler") (.level 0) (.handler T ctor args)).spec.step (.alias (T ++ ".dst") (T ++ ".handler"))).getAlias
      (T ++ ".dst") = some (T ++ ".handler") := by rw [Wiring.getAlias_alias, if_pos rfl]
  simp only [Wired.step, Fam.step, createPointer, Wiring.requireUniqueness, e1, Wired.addSrc, Ptr.addSrc, Fam.addSrc, payload]
  have dm : '.' ∈ (T ++ ".client").toList := dots_mem (by decide)
  refine sim_some ?_ ?_ getPtr_set rfl (next_tail hd dm (fam_dot hd _ (by decide)))
  · refine SS.define ?_ _ _ _ _
    refine SS.setPtr ?_ _
    refine SS.alias ?_ _ _
    refine SS.alias ?_ _ _
    refine SS.setPropertyF ?_ (fam_self hd) (if_pos rfl)
    refine SS.define ?_ _ _ _ _
    refine SS.alias ?_ _ _
    refine SS.alias ?_ _ _
    refine SS.define ?_ _ _ _ _
    refine SS.define ?_ _ _ _ _
    refine SS.alias ?_ _ _
    exact SS.define h.ss _ _ _ _
  · refine prop_define ?_ (sub_dot_ne hd (by decide))
    refine prop_alias ?_ (next_ne hd dm)
    refine prop_alias ?_ (sub_dot_ne hd (by decide))
    exact getProperty_set _ _ _ _

theorem sim_wrapClient {T : Name} (hd : Dotless T) {w : Wired} {f : Fam} (h : Sim T w f) (s : Name) :
    Sim T (w.step (.wrapClient T s)) (f.step T (.wrapClient T s)) := by
  have hp := h.getPtr
  cases e : f.ptr with
  | none => rw [e] at hp; simp only [Wired.step, Fam.step, hp, e]; exact h
  | some p =>
    rw [e] at hp
    simp only [Wired.step, Fam.step, hp, e, Wired.addSrc, Ptr.addSrc, Fam.addSrc]
    have dm : '.' ∈ (T ++ "." ++ s).toList := dot_mem T s
    refine sim_some ?_ ?_ getPtr_set rfl (next_tail hd dm (fam_sub hd s))
    · refine SS.define ?_ _ _ _ _
      refine SS.setPtr ?_ _
      refine SS.alias ?_ _ _
      exact SS.alias h.ss _ _
    · exact prop_define (prop_alias (prop_alias (h.prop p e) (h.tail p e).2) (next_ne hd dm)) (sub_ne T s)

theorem sim_wrapServer {T : Name} {w : Wired} {f : Fam} (h : Sim T w f) (s : Name) :
    Sim T (w.step (.wrapServer T s)) (f.step T (.wrapServer T s)) := by
  have hp := h.getPtr
  cases e : f.ptr with
  | none => rw [e] at hp; simp only [Wired.step, Fam.step, hp, e]; exact h
  | some p =>
    rw [e] at hp
    simp only [Wired.step, Fam.step, hp, e, Ptr.addDst, if_true]
    refine sim_some ?_ ?_ getPtr_set rfl (h.tail p e)
    · refine SS.define ?_ _ _ _ _
      refine SS.setPtr ?_ _
      exact SS.alias h.ss _ _
    · exact prop_define (prop_alias (h.prop p e) (h.tail p e).2) (sub_ne T s)

/-- What `backend` does, with any names. -/
theorem sim_backend' {T addr bn dn cl nx vis ck ctr dst src : Name} (hT : fam T = T.toList) {w : Wired} {f : Fam} (h : Sim T w f)
    (h1 : addr ≠ T) (h2 : bn ≠ T) (h3 : dn ≠ T) (h4 : cl ≠ T) (h5 : src ≠ T) (h6 : fam nx = T.toList ∧ nx ≠ T) {v : Prop'} {q : Ptr}
    (hq : q.srcTail = nx) {k1 k2 k3 k4 k5 : Kind} {m : GoMap Ptr} :
    Sim T ⟨(((((((((((((((((w.spec.step (.define ctr (.level 2) k1 .stack)).step (.alias dst ctr)).step (.define vis .app k2 .stack)).step
        (.define ck (.level 2) k3 .stack)).step (.alias dst ck)).step (.alias src dst)).step (.define T (.level 0) k4 .stack)).step
        (.setProperty T "ptr" (.ptr T))).step (.setProperty addr "addr" v)).step (.define addr .app .addr .stack)).step
        (.define bn .app .bind .stack)).step (.define dn .app .dial .stack)).step (.alias src ctr)).step (.alias src addr)).step
        (.alias src cl)).step (.alias nx addr)).step (.define cl (.level 0) k5 .stack)), m.set T q⟩
      ((((((((((((((((f.define ctr (.level 2) k1).alias dst ctr).define vis .app k2).define ck (.level 2) k3).alias dst ck).alias src
        dst).define T (.level 0) k4).define addr .app .addr).define bn .app .bind).define dn .app .dial).alias src ctr).alias src
        addr).alias src cl).alias nx addr).setPtr q).define cl (.level 0) k5) := by
  have s1 := SS.define h.ss ctr (.level 2) k1 .stack
  have s2 := s1.alias dst ctr
  have s3 := s2.define vis .app k2 .stack
  have s4 := s3.define ck (.level 2) k3 .stack
  have s5 := s4.alias dst ck
  have s6 := s5.alias src dst
  have s7 := s6.define T (.level 0) k4 .stack
  have s8 := s7.setPropertyF (n := T) (key := "ptr") (v := .ptr T) (ty := .level 0) (k := some k4) hT (if_pos rfl)
  have s9 := s8.setDefine addr "addr" v .app .addr .stack
  have s10 := s9.define bn .app .bind .stack
  have s11 := s10.define dn .app .dial .stack
  have s12 := s11.alias src ctr
  have s13 := s12.alias src addr
  have s14 := s13.alias src cl
  have s15 := s14.alias nx addr
  have s16 := (s15.setPtr q).define cl (.level 0) k5 .stack
  clear s1 s2 s3 s4 s5 s6 s7 s8 s9 s10 s11 s12 s13 s14 s15
  have p0 := getProperty_set (((((((w.spec.step (.define ctr (.level 2) k1 .stack)).step (.alias dst ctr)).step (.define vis .app k2 .stack)).step
        (.define ck (.level 2) k3 .stack)).step (.alias dst ck)).step (.alias src dst)).step (.define T (.level 0) k4 .stack)) T "ptr" (.ptr T)
  have p1 := prop_set p0 (key := "addr") (v := v) h1
  have p2 := prop_define p1 (ty := .app) (k := .addr) (st := .stack) h1
  have p3 := prop_define p2 (ty := .app) (k := .bind) (st := .stack) h2
  have p4 := prop_define p3 (ty := .app) (k := .dial) (st := .stack) h3
  have p5 := prop_alias p4 (q := ctr) h5
  have p6 := prop_alias p5 (q := addr) h5
  have p7 := prop_alias p6 (q := cl) h5
  have p8 := prop_alias p7 (q := addr) h6.2
  have p9 := prop_define p8 (ty := .level 0) (k := k5) (st := .stack) h4
  exact sim_some s16 p9 getPtr_set rfl (by rw [hq]; exact h6)

theorem sim_backend {T : Name} (hd : Dotless T) {w : Wired} {f : Fam} (h : Sim T w f) :
    Sim T (w.step (.backend T)) (f.step T (.backend T)) := by
  have e1 : ((w.define (T ++ ".ctr") (.level 2) (.container (T ++ ".addr"))).spec.step (.alias (T ++ ".dst") (T ++ ".ctr"))).getAlias
      (T ++ ".dst") = some (T ++ ".ctr") := by rw [Wiring.getAlias_alias, if_pos rfl]
  simp only [Wired.step, Fam.step, createPointer, Wiring.requireUniqueness, e1, Wired.addSrc, Ptr.addSrc, Ptr.addAddr, Ptr.addDst, if_true,
    Fam.addSrc, payload]
  simp only [Wired.define, Wired.setPtr, pointsTo_new, ← show nextOf (T ++ ".client") = T ++ ".client" ++ ".ptr.src.next" from rfl]
  have dm : '.' ∈ (T ++ ".client").toList := dots_mem (by decide)
  have h1 : ∀ s : Name, '.' ∈ s.toList → T ++ s ≠ T := fun s hs => sub_dot_ne hd hs
  have hb : bindName (T ++ ".addr") ≠ T := by rw [bindName_ctr]; exact h1 _ (by decide)
  have hdl : dialName (T ++ ".addr") ≠ T := by rw [dialName_ctr]; exact h1 _ (by decide)
  have h2 := h1 ".addr" (by decide)
  have h3 := h1 ".client" (by decide)
  have h6 := h1 ".src" (by decide)
  have h5 := next_tail hd dm (fam_dot hd _ (by decide))
  have hT := fam_self hd
  clear dm h1 e1 hd
  generalize bindName (T ++ ".addr") = bn at *
  generalize dialName (T ++ ".addr") = dn at *
  generalize nextOf (T ++ ".client") = nx at *
  generalize T ++ ".addr" = addr at *
  generalize T ++ ".client" = cl at *
  generalize T ++ ".ctr" ++ ".visibility" = vis at *
  generalize T ++ ".ctr" ++ ".uniqueness_check" = ck at *
  generalize T ++ ".ctr" = ctr at *
  generalize T ++ ".dst" = dst at *
  generalize T ++ ".src" = src at *
  exact sim_backend' hT h h2 hb hdl h3 h6 h5 rfl

/-- What `rpc` does, with any names. -/
theorem sim_rpc' {T addr bn dn cl sv nx : Name} {w : Wired} {f : Fam} (h : Sim T w f) {p : Ptr} (e : f.ptr = some p)
    (h1 : addr ≠ T) (h2 : bn ≠ T) (h3 : dn ≠ T) (h4 : cl ≠ T) (h5 : sv ≠ T) (h6 : fam nx = T.toList ∧ nx ≠ T) {v : Prop'} {p' q : Ptr}
    (hq : q.srcTail = nx) {k k' : Kind} {m : GoMap Ptr} :
    Sim T ⟨(((((((((w.spec.step (.setProperty addr "addr" v)).step (.define addr .app .addr .stack)).step (.define bn .app .bind .stack)).step
        (.define dn .app .dial .stack)).step (.alias p.srcTail cl)).step (.alias nx p.interfaceNode)).step
        (.define cl (.level 0) k .stack)).step (.alias nx sv)).step (.alias nx addr)).step (.define sv (.level 0) k' .stack), m.set T q⟩
      (((((((((((f.define addr .app .addr).define bn .app .bind).define dn .app .dial).alias p.srcTail cl).alias nx p.interfaceNode).setPtr
        p').define cl (.level 0) k).alias nx sv).alias nx addr).setPtr q).define sv (.level 0) k') := by
  refine sim_some ?_ ?_ getPtr_set rfl (by rw [hq]; exact h6)
  · refine SS.define ?_ _ _ _ _
    refine SS.setPtr ?_ _
    refine SS.alias ?_ _ _
    refine SS.alias ?_ _ _
    refine SS.define ?_ _ _ _ _
    refine SS.setPtr ?_ _
    refine SS.alias ?_ _ _
    refine SS.alias ?_ _ _
    refine SS.define ?_ _ _ _ _
    refine SS.define ?_ _ _ _ _
    exact SS.setDefine h.ss _ _ _ _ _ _
  · refine prop_define ?_ h5
    refine prop_alias ?_ h6.2
    refine prop_alias ?_ h6.2
    refine prop_define ?_ h4
    refine prop_alias ?_ h6.2
    refine prop_alias ?_ (h.tail p e).2
    refine prop_define ?_ h3
    refine prop_define ?_ h2
    refine prop_define ?_ h1
    exact prop_set (h.prop p e) h1

theorem sim_rpc (pr : Proto) {T : Name} (hd : Dotless T) {w : Wired} {f : Fam} (h : Sim T w f) :
    Sim T (w.step (.rpc pr T)) (f.step T (.rpc pr T)) := by
  have hp := h.getPtr
  cases e : f.ptr with
  | none => rw [e] at hp; simp only [Wired.step, Fam.step, hp, e]; exact h
  | some p =>
    rw [e] at hp
    simp only [Wired.step, Fam.step, hp, e, Wired.addSrc, Ptr.addSrc, Ptr.addAddr, Ptr.addDst, if_true, Fam.addSrc, Wired.define,
      Wired.setPtr, pointsTo_new, ← show nextOf (T ++ pr.client) = T ++ pr.client ++ ".ptr.src.next" from rfl]
    have dm : '.' ∈ (T ++ pr.client).toList := dots_mem pr.client_dot
    have h1 : ∀ s : Name, '.' ∈ s.toList → T ++ s ≠ T := fun s hs => sub_dot_ne hd hs
    have hb : bindName (T ++ pr.addr) ≠ T := by rw [bindName_addr]; exact h1 _ (by cases pr <;> decide)
    have hdl : dialName (T ++ pr.addr) ≠ T := by rw [dialName_addr]; exact h1 _ (by cases pr <;> decide)
    have h2 := h1 pr.addr pr.addr_dot
    have h3 := h1 pr.client pr.client_dot
    have h4 := h1 pr.server pr.server_dot
    have h5 := next_tail hd dm (fam_dot hd _ pr.client_head)
    clear dm h1
    generalize bindName (T ++ pr.addr) = bn at *
    generalize dialName (T ++ pr.addr) = dn at *
    generalize nextOf (T ++ pr.client) = nx at *
    generalize T ++ pr.addr = addr at *
    generalize T ++ pr.client = cl at *
    generalize T ++ pr.server = sv at *
    exact sim_rpc' h e h2 hb hdl h3 h4 h5 rfl

theorem sim_addTo {T : Name} {w : Wired} {f : Fam} (h : Sim T w f) (l : Nat) (x : Name) (hx : fam x ≠ T.toList) (hd : Dotless T) :
    Sim T (w.step (.addTo l x T)) (f.step T (.addTo l x T)) := by
  have hp := h.getPtr
  have hxT : x ≠ T := fun e => hx (by rw [e]; exact fam_self hd)
  cases e : f.ptr with
  | none =>
    rw [e] at hp
    simp only [Wired.step, Fam.step, hp, e]
    have hq : ∀ q, (w.spec.step (.addProperty x "Children" (.child T))).getProperty T "ptr" ≠ .value (.ptr q) := by
      intro q
      rw [getProperty_other w.spec _ (by exact hxT)]
      exact h.none e q
    exact ⟨h.ss.away (.addProperty x _ _) hx, fun _ => hq, fun p e' => by simp at e', fun p e' => by simp at e', fun p e' => by simp at e'⟩
  | some p =>
    rw [e] at hp
    simp only [Wired.step, Fam.step, hp, e, Ptr.addDst, Bool.false_eq_true, if_false]
    refine sim_some ?_ ?_ getPtr_set rfl (h.tail p e)
    · refine SS.away ?_ (.addProperty x _ _) hx
      refine SS.define ?_ _ _ _ _
      exact SS.setPtr h.ss _
    · exact prop_add (prop_define (h.prop p e) (sub_ne T x)) hxT

/-- The declarations about service `T` do the same to the wiring spec as to the entries of the service alone. -/
theorem sim_own {T : Name} (hd : Dotless T) {w : Wired} {f : Fam} (h : Sim T w f) {d : Decl} (ha : d.about = some T)
    (hx : ∀ l x s, d = .addTo l x s → fam x ≠ T.toList) : Sim T (w.step d) (f.step T d) := by
  cases d with
  | space x l => cases ha
  | service svc ctor args => cases ha; exact sim_service hd h ctor args
  | wrapClient svc s => cases ha; exact sim_wrapClient hd h s
  | wrapServer svc s => cases ha; exact sim_wrapServer h s
  | rpc pr svc => cases ha; exact sim_rpc pr hd h
  | backend svc => cases ha; exact sim_backend hd h
  | addTo l x svc => cases ha; exact sim_addTo h l x (hx l x T rfl) hd

/-! ### Declarations about other services -/

/-- The wiring spec changed, but not on the family of `T`. -/
structure Far (T : Name) (s s' : WSpec) : Prop where
  ss : ∀ g, SS T s g → SS T s' g
  prop : s'.getProperty T "ptr" = s.getProperty T "ptr"

theorem Far.refl (T : Name) (s : WSpec) : Far T s s := ⟨fun _ h => h, rfl⟩

theorem Far.step {T : Name} (hT : Dotless T) {s s' : WSpec} (h : Far T s s') {op : Op Ty Kind Prop'} {n : Name} (ho : op.name = n)
    (hn : fam n ≠ T.toList) : Far T s (s'.step op) := by
  subst ho
  refine ⟨fun g hg => (h.ss g hg).away op hn, ?_⟩
  rw [getProperty_other s' op (fun e => hn (by rw [e]; exact fam_self hT))]
  exact h.prop

theorem Far.define {T : Name} (hT : Dotless T) {s s' : WSpec} {n : Name} {ty : Ty} {k : Kind} {st : Prop'} (hn : fam n ≠ T.toList)
    (h : Far T s s') : Far T s (s'.step (.define n ty k st)) := h.step hT (op := .define n ty k st) rfl hn

theorem Far.alias {T : Name} (hT : Dotless T) {s s' : WSpec} {n q : Name} (hn : fam n ≠ T.toList)
    (h : Far T s s') : Far T s (s'.step (.alias n q)) := h.step hT (op := .alias n q) rfl hn

theorem Far.set {T : Name} (hT : Dotless T) {s s' : WSpec} {n key : Name} {v : Prop'} (hn : fam n ≠ T.toList)
    (h : Far T s s') : Far T s (s'.step (.setProperty n key v)) := h.step hT (op := .setProperty n key v) rfl hn

theorem Far.add {T : Name} (hT : Dotless T) {s s' : WSpec} {n key : Name} {v : Prop'} (hn : fam n ≠ T.toList)
    (h : Far T s s') : Far T s (s'.step (.addProperty n key v)) := h.step hT (op := .addProperty n key v) rfl hn

theorem Far.sim {T : Name} {w w' : Wired} {f : Fam} (h : Far T w.spec w'.spec) (hp : w'.ptrs.get T = w.ptrs.get T) (hs : Sim T w f) :
    Sim T w' f := by
  refine ⟨h.ss _ hs.ss, fun e q => ?_, fun p e => ?_, fun p e => ?_, hs.tail⟩
  · rw [h.prop]; exact hs.none e q
  · rw [h.prop]; exact hs.prop p e
  · rw [hp]; exact hs.ptr p e

theorem getPtr_set_ne {T U : Name} {m : GoMap Ptr} {p : Ptr} (h : T ≠ U) : (m.set U p).get T = m.get T := by
  rw [GoMap.get_set, if_neg h]

section
variable {T U : Name} (hT : Dotless T) (hU : Dotless U) (hne : T ≠ U) {w : Wired} {f g : Fam} (h : Sim T w f) (hg : Sim U w g)
include hT hU hne h hg

theorem other_service (ctor : List Bool) (args : List Name) : Sim T (w.step (.service U ctor args)) f := by
  have hf : ∀ n, fam n = U.toList → fam n ≠ T.toList := fun n e e' => hne (String.toList_inj.1 (e'.symm.trans e))
  have e1 : ((w.spec.step (.define (U ++ ".handler") (.level 0) (.handler U ctor args) .stack)).step (.alias (U ++ ".dst") (U ++ ".handler"))).getAlias
      (U ++ ".dst") = some (U ++ ".handler") := by rw [Wiring.getAlias_alias, if_pos rfl]
  refine Far.sim (w := w) ?_ ?_ h
  · simp only [Wired.step, createPointer, Wiring.requireUniqueness, e1, Wired.addSrc, Ptr.addSrc, payload, Wired.define, Wired.setPtr,
      ← show nextOf (U ++ ".client") = U ++ ".client" ++ ".ptr.src.next" from rfl]
    have n1 := hf _ (fam_dot hU ".handler" (by decide))
    have n2 := hf _ (fam_dot hU ".dst" (by decide))
    have n3 := hf _ ((fam_append (s := ".visibility") (dots_mem (T := U) (s := ".handler") (by decide))).trans (fam_dot hU ".handler" (by decide)))
    have n4 := hf _ ((fam_append (s := ".uniqueness_check") (dots_mem (T := U) (s := ".handler") (by decide))).trans (fam_dot hU ".handler" (by decide)))
    have n5 := hf _ (fam_dot hU ".src" (by decide))
    have n6 := hf _ (fam_self hU)
    have n7 := hf _ (fam_dot hU ".client" (by decide))
    have n8 := hf _ (fam_next (dots_mem (T := U) (s := ".client") (by decide)) (fam_dot hU ".client" (by decide)))
    clear e1
    generalize nextOf (U ++ ".client") = nx at *
    generalize U ++ ".client" = cl at *
    generalize U ++ ".src" = sr at *
    generalize U ++ ".dst" = ds at *
    generalize U ++ ".handler" = hh at *
    generalize hh ++ ".visibility" = vv at *
    generalize hh ++ ".uniqueness_check" = uu at *
    refine Far.define hT n7 ?_
    refine Far.alias hT n8 ?_
    refine Far.alias hT n5 ?_
    refine Far.set hT n6 ?_
    refine Far.define hT n6 ?_
    refine Far.alias hT n5 ?_
    refine Far.alias hT n2 ?_
    refine Far.define hT n4 ?_
    refine Far.define hT n3 ?_
    refine Far.alias hT n2 ?_
    refine Far.define hT n1 ?_
    exact Far.refl T _
  · simp only [Wired.step, createPointer, Wiring.requireUniqueness, e1, Wired.addSrc, Ptr.addSrc, Wired.define, Wired.setPtr]
    rw [getPtr_set_ne hne, getPtr_set_ne hne]

theorem other_backend : Sim T (w.step (.backend U)) f := by
  have hf : ∀ n, fam n = U.toList → fam n ≠ T.toList := fun n e e' => hne (String.toList_inj.1 (e'.symm.trans e))
  have e1 : ((w.spec.step (.define (U ++ ".ctr") (.level 2) (.container (U ++ ".addr")) .stack)).step
      (.alias (U ++ ".dst") (U ++ ".ctr"))).getAlias (U ++ ".dst") = some (U ++ ".ctr") := by rw [Wiring.getAlias_alias, if_pos rfl]
  refine Far.sim (w := w) ?_ ?_ h
  · simp only [Wired.step, createPointer, Wiring.requireUniqueness, e1, Wired.addSrc, Ptr.addSrc, Ptr.addAddr, Ptr.addDst, if_true, payload,
      Wired.define, Wired.setPtr, ← show nextOf (U ++ ".client") = U ++ ".client" ++ ".ptr.src.next" from rfl]
    have n1 := hf _ (fam_dot hU ".ctr" (by decide))
    have n2 := hf _ (fam_dot hU ".dst" (by decide))
    have n3 := hf _ ((fam_append (s := ".visibility") (dots_mem (T := U) (s := ".ctr") (by decide))).trans (fam_dot hU ".ctr" (by decide)))
    have n4 := hf _ ((fam_append (s := ".uniqueness_check") (dots_mem (T := U) (s := ".ctr") (by decide))).trans (fam_dot hU ".ctr" (by decide)))
    have n5 := hf _ (fam_dot hU ".src" (by decide))
    have n6 := hf _ (fam_self hU)
    have n7 := hf _ (fam_dot hU ".client" (by decide))
    have n8 := hf _ (fam_next (dots_mem (T := U) (s := ".client") (by decide)) (fam_dot hU ".client" (by decide)))
    have n9 := hf _ (fam_dot hU ".addr" (by decide))
    have n10 : fam (bindName (U ++ ".addr")) ≠ T.toList := by rw [bindName_ctr]; exact hf _ (fam_dot hU ".bind_addr" (by decide))
    have n11 : fam (dialName (U ++ ".addr")) ≠ T.toList := by rw [dialName_ctr]; exact hf _ (fam_dot hU ".dial_addr" (by decide))
    clear e1
    generalize bindName (U ++ ".addr") = bn at *
    generalize dialName (U ++ ".addr") = dn at *
    generalize U ++ ".addr" = addr at *
    generalize nextOf (U ++ ".client") = nx at *
    generalize U ++ ".client" = cl at *
    generalize U ++ ".src" = sr at *
    generalize U ++ ".dst" = ds at *
    generalize U ++ ".ctr" = hh at *
    generalize hh ++ ".visibility" = vv at *
    generalize hh ++ ".uniqueness_check" = uu at *
    refine Far.define hT n7 ?_
    refine Far.alias hT n8 ?_
    refine Far.alias hT n5 ?_
    refine Far.alias hT n5 ?_
    refine Far.alias hT n5 ?_
    refine Far.define hT n11 ?_
    refine Far.define hT n10 ?_
    refine Far.define hT n9 ?_
    refine Far.set hT n9 ?_
    refine Far.set hT n6 ?_
    refine Far.define hT n6 ?_
    refine Far.alias hT n5 ?_
    refine Far.alias hT n2 ?_
    refine Far.define hT n4 ?_
    refine Far.define hT n3 ?_
    refine Far.alias hT n2 ?_
    refine Far.define hT n1 ?_
    exact Far.refl T _
  · simp only [Wired.step, createPointer, Wiring.requireUniqueness, e1, Wired.addSrc, Ptr.addSrc, Wired.define, Wired.setPtr]
    rw [getPtr_set_ne hne, getPtr_set_ne hne]

theorem other_wrapClient (s : Name) : Sim T (w.step (.wrapClient U s)) f := by
  have hf : ∀ n, fam n = U.toList → fam n ≠ T.toList := fun n e e' => hne (String.toList_inj.1 (e'.symm.trans e))
  have hp := hg.getPtr
  cases e : g.ptr with
  | none => rw [e] at hp; simp only [Wired.step, hp]; exact h
  | some p =>
    rw [e] at hp
    have n1 := hf _ (hg.tail p e).1
    have n2 := hf _ (fam_sub hU s)
    have n3 := hf _ (fam_next (dot_mem U s) (fam_sub hU s))
    simp only [Wired.step, hp, Wired.addSrc, Ptr.addSrc, Wired.define, Wired.setPtr]
    refine Far.sim (w := w) ?_ (getPtr_set_ne hne) h
    refine Far.define hT n2 ?_
    refine Far.alias hT n3 ?_
    refine Far.alias hT n1 ?_
    exact Far.refl T _

theorem other_wrapServer (s : Name) : Sim T (w.step (.wrapServer U s)) f := by
  have hf : ∀ n, fam n = U.toList → fam n ≠ T.toList := fun n e e' => hne (String.toList_inj.1 (e'.symm.trans e))
  have hp := hg.getPtr
  cases e : g.ptr with
  | none => rw [e] at hp; simp only [Wired.step, hp]; exact h
  | some p =>
    rw [e] at hp
    have n1 := hf _ (hg.tail p e).1
    have n2 := hf _ (fam_sub hU s)
    simp only [Wired.step, hp, Ptr.addDst, if_true, Wired.define, Wired.setPtr]
    refine Far.sim (w := w) ?_ (getPtr_set_ne hne) h
    refine Far.define hT n2 ?_
    refine Far.alias hT n1 ?_
    exact Far.refl T _

theorem other_rpc (pr : Proto) : Sim T (w.step (.rpc pr U)) f := by
  have hf : ∀ n, fam n = U.toList → fam n ≠ T.toList := fun n e e' => hne (String.toList_inj.1 (e'.symm.trans e))
  have hp := hg.getPtr
  cases e : g.ptr with
  | none => rw [e] at hp; simp only [Wired.step, hp]; exact h
  | some p =>
    rw [e] at hp
    have n1 := hf _ (hg.tail p e).1
    have n2 := hf _ (fam_dot hU pr.addr (by cases pr <;> decide))
    have n3 : fam (bindName (U ++ pr.addr)) ≠ T.toList := by
      rw [bindName_addr]; exact hf _ (fam_dot hU (pr.stem ++ ".bind_addr") (by cases pr <;> decide))
    have n4 : fam (dialName (U ++ pr.addr)) ≠ T.toList := by
      rw [dialName_addr]; exact hf _ (fam_dot hU (pr.stem ++ ".dial_addr") (by cases pr <;> decide))
    have n5 := hf _ (fam_dot hU pr.client (by cases pr <;> decide))
    have n6 := hf _ (fam_next (dots_mem (T := U) (s := pr.client) pr.client_dot) (fam_dot hU pr.client (by cases pr <;> decide)))
    have n7 := hf _ (fam_dot hU pr.server (by cases pr <;> decide))
    simp only [Wired.step, hp, Wired.addSrc, Ptr.addSrc, Ptr.addAddr, Ptr.addDst, if_true, Wired.define, Wired.setPtr, pointsTo_new,
      ← show nextOf (U ++ pr.client) = U ++ pr.client ++ ".ptr.src.next" from rfl]
    generalize bindName (U ++ pr.addr) = bn at *
    generalize dialName (U ++ pr.addr) = dn at *
    generalize nextOf (U ++ pr.client) = nx at *
    generalize U ++ pr.addr = addr at *
    generalize U ++ pr.client = cl at *
    generalize U ++ pr.server = sv at *
    refine Far.sim (w := w) ?_ (by simp only; rw [getPtr_set_ne hne, getPtr_set_ne hne]) h
    refine Far.define hT n7 ?_
    refine Far.alias hT n6 ?_
    refine Far.alias hT n6 ?_
    refine Far.define hT n5 ?_
    refine Far.alias hT n6 ?_
    refine Far.alias hT n1 ?_
    refine Far.define hT n4 ?_
    refine Far.define hT n3 ?_
    refine Far.define hT n2 ?_
    refine Far.set hT n2 ?_
    exact Far.refl T _

theorem other_addTo (l : Nat) (x : Name) (hx : fam x ≠ T.toList) : Sim T (w.step (.addTo l x U)) f := by
  have hf : ∀ n, fam n = U.toList → fam n ≠ T.toList := fun n e e' => hne (String.toList_inj.1 (e'.symm.trans e))
  have hp := hg.getPtr
  cases e : g.ptr with
  | none =>
    rw [e] at hp
    simp only [Wired.step, hp]
    refine Far.sim (w := w) ?_ rfl h
    refine Far.add hT hx ?_
    exact Far.refl T _
  | some p =>
    rw [e] at hp
    have n2 := hf _ (fam_sub hU x)
    simp only [Wired.step, hp, Ptr.addDst, Bool.false_eq_true, if_false, Wired.define, Wired.setPtr]
    refine Far.sim (w := w) ?_ (getPtr_set_ne hne) h
    refine Far.add hT hx ?_
    refine Far.define hT n2 ?_
    exact Far.refl T _

/-- Declarations about other services leave the entries of a service alone. -/
theorem sim_other {d : Decl} (ha : d.about = some U) (hx : ∀ l x s, d = .addTo l x s → fam x ≠ T.toList) : Sim T (w.step d) f := by
  cases d with
  | space x l => cases ha
  | service svc ctor args => cases ha; exact other_service hT hU hne h hg ctor args
  | wrapClient svc s => cases ha; exact other_wrapClient hT hU hne h hg s
  | wrapServer svc s => cases ha; exact other_wrapServer hT hU hne h hg s
  | rpc pr svc => cases ha; exact other_rpc hT hU hne h hg pr
  | backend svc => cases ha; exact other_backend hT hU hne h hg
  | addTo l x svc => cases ha; exact other_addTo hT hU hne h hg l x (hx l x U rfl)

end

theorem sim_space {T : Name} (hT : Dotless T) {w : Wired} {f : Fam} (h : Sim T w f) {x : Name} (hx : fam x ≠ T.toList) (l : Nat) :
    Sim T (w.step (.space x l)) f := by
  simp only [Wired.step, Wired.define]
  refine Far.sim (w := w) ?_ rfl h
  refine Far.define hT hx ?_
  exact Far.refl T _

end Verif.Compile
