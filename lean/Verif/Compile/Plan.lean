import Verif.Compile.Facts
import Verif.Compile.Det
/-
What the names of an application stand for.
-/
namespace Verif.Compile
set_option linter.unusedSimpArgs false
set_option linter.unusedSectionVars false
open Verif.Wiring (Name Ptr nextOf)

/-- The services that are built, and the namespaces in which they are called. -/
structure Closed (A : App) (Act : Svc → Prop) (Called : Space → Svc → Prop) : Prop where
  act : ∀ S, Act S → S ∈ A.svcs
  called : ∀ sp U, Called sp U → Act U ∧ U.Usable sp ∧ (sp = [] ∨ ∃ S, Act S ∧ S.back = false ∧ sp = S.home)
  args : ∀ S str U, Act S → U ∈ A.svcs → (str, U.name) ∈ S.ctor.zip S.args → Called S.home U
  beside : ∀ S U a x b, Act S → S.home = a ++ x :: b → U ∈ A.svcs → x ∈ U.places → Act U

/-- A namespace around a service that is built. -/
def Path (Act : Svc → Prop) (sp : Space) : Prop := sp = [] ∨ ∃ S a, Act S ∧ S.home = a ++ sp

/-- Which names are asked for in which namespaces. -/
def Role (w : Wired) (Act : Svc → Prop) (Called : Space → Svc → Prop) (sp : Space) (n : Name) : Kind → Prop
  | .handler svc _ _ => ∃ S, Act S ∧ S.back = false ∧ n = handlerN S.name ∧ svc = S.name ∧ sp = S.home
  | .check _ _ => ∃ S, Act S ∧ S.back = false ∧ n = checkN S.name ∧ sp = S.home
  | .ptr => ∃ S, Called sp S ∧ n = S.name
  | .client _ => ∃ S, Called sp S ∧ S.back = false ∧ n = clientN S.name
  | .wrap _ => (∃ S, Called sp S ∧ S.back = false ∧ n ∈ clients S.name S.wraps) ∨ ∃ S, Act S ∧ S.back = false ∧ n ∈ servers S.name S.wraps ∧ sp = S.home
  | .grpcClient _ => ∃ S, Called sp S ∧ S.rpc = true ∧ n = S.rpcClientN
  | .grpcServer _ _ => ∃ S, Act S ∧ S.back = false ∧ S.rpc = true ∧ n = S.serverN ∧ sp = S.home
  | .container _ => ∃ S, Act S ∧ S.back = true ∧ S.rpc = true ∧ n = S.serverN ∧ (sp = S.home ∨ w.env.accepts sp (.level 2) = false)
  | .visibility => ∃ S, Act S ∧ S.back = false ∧ n = visN S.name
  | .addr => ∃ S, Act S ∧ S.rpc = true ∧ n = S.addrN
  | .bind => ∃ S a, Act S ∧ S.rpc = true ∧ n = bindName S.addrN ∧ S.home = a ++ sp
  | .dial => ∃ S a, Called (a ++ sp) S ∧ S.rpc = true ∧ n = dialName S.addrN
  | .space _ => Path Act (n :: sp)
  | .enter x _ => ∃ S a b, Act S ∧ S.places = a ++ x :: b ∧ n = subN S.name x

def Lawful (w : Wired) (Act : Svc → Prop) (Called : Space → Svc → Prop) (sp : Space) (n : Name) : Prop :=
  Path Act sp ∧ ∀ ty k, w.env.look n = some (n, ty, some k) → Role w Act Called sp n k

section
variable {A : App} {rank : Name → Nat} {w : Wired} {Act : Svc → Prop} {Called : Space → Svc → Prop}

local notation "L" => Lawful w Act Called
local notation "E" => Wired.env w

theorem lawful_node {sp : Space} {n : Name} {ty : Ty} {k : Kind} (hp : Path Act sp) (hl : w.env.look n = some (n, ty, some k))
    (hr : Role w Act Called sp n k) : L sp n := by
  refine ⟨hp, ?_⟩
  intro ty' k' e
  rw [hl] at e
  cases e
  exact hr

theorem lawful_alias {sp : Space} {n dn : Name} {ty : Ty} {k : Option Kind} (hp : Path Act sp) (hl : w.env.look n = some (dn, ty, k))
    (hne : dn ≠ n) : L sp n := by
  refine ⟨hp, ?_⟩
  intro ty' k' e
  rw [hl] at e
  cases e
  exact absurd rfl hne

theorem Path.tail {x : Name} {r : Space} (h : Path Act (x :: r)) : Path Act r := by
  rcases h with h | ⟨S, a, h1, h2⟩
  · cases h
  · exact .inr ⟨S, a ++ [x], h1, by simp [h2]⟩

theorem Path.home {S : Svc} (h : Act S) : Path Act S.home := .inr ⟨S, [], h, rfl⟩

theorem Path.drop {S : Svc} (h : Act S) {a sp : Space} (e : S.home = a ++ sp) : Path Act sp := .inr ⟨S, a, h, e⟩

/-! ### Aliases -/

/-- The name leads to a definition in at most one step. -/
def End (w : Wired) (i : Name) : Prop :=
  (∃ ty k, tab w.spec i = some (.node ty (some k))) ∨
    ∃ j ty k, tab w.spec i = some (.alias j) ∧ tab w.spec j = some (.node ty (some k))

theorem alias_ne {n j : Name} {i : Name} {ty : Ty} {k : Option Kind} (h : tab w.spec n = some (.alias i))
    (h' : tab w.spec j = some (.node ty k)) : j ≠ n := by
  intro e; subst e; rw [h] at h'; cases h'

theorem look_through {n i : Name} (h : tab w.spec n = some (.alias i)) (he : End w i) :
    ∃ dn ty k, w.env.look n = some (dn, ty, some k) ∧ w.env.look i = some (dn, ty, some k) ∧ dn ≠ n := by
  rcases he with ⟨ty, k, e⟩ | ⟨j, ty, k, e, e'⟩
  · exact ⟨i, ty, k, look_alias h e, look_node e, alias_ne h e⟩
  · exact ⟨j, ty, k, look_alias2 h e e', look_alias e e', alias_ne h e'⟩

theorem den_alias {n i : Name} (h : tab w.spec n = some (.alias i)) (he : End w i) {sp : Space} (hp : Path Act sp) {d : Nat} {t : Tree}
    (dn : Den E L d sp i t) : ∃ d', Den E L d' sp n t := by
  obtain ⟨m, ty, k, h1, h2, h3⟩ := look_through h he
  have hl : L sp n := lawful_alias hp h1 h3
  cases dn with
  | alias l e hne dd =>
    rw [h2] at e; cases e
    exact ⟨_, .alias hl h1 h3 dd⟩
  | climb l e ha dd =>
    have e' := e
    rw [h2] at e; cases e
    exact ⟨_, .alias hl h1 h3 (.climb l h2 ha dd)⟩
  | built l e ha dd =>
    have e' := e
    rw [h2] at e; cases e
    exact ⟨_, .alias hl h1 h3 (.built l h2 ha dd)⟩

/-! ### Which namespaces accept what -/

variable (fit : A.Fits rank) (F : Facts A w) (C : Closed A Act Called)
include fit F C

theorem look_space {S : Svc} (hS : Act S) {a b : List Name} {x : Name} (e : S.home = a ++ x :: b) :
    w.env.look x = some (x, .level (S.base + a.length + 1), some (.space (S.base + a.length + 1))) :=
  look_node (F.spaces _ _ (fit.homes S (C.act S hS) a x b e))

theorem acc_eq {S : Svc} (hS : Act S) {a sp : List Name} (e : S.home = a ++ sp) (l : Nat) :
    Env.accepts E sp (.level l) = decide (sp = [] ∨ l = S.base + a.length) := by
  cases sp with
  | nil => simp [Env.accepts]
  | cons x b =>
    simp only [Env.accepts, look_space fit F C hS e]
    simp only [reduceCtorEq, false_or]
    by_cases h : l = S.base + a.length
    · simp [h]
    · rw [decide_eq_false h, decide_eq_false (by omega)]

theorem acc_base {S : Svc} (hS : Act S) : Env.accepts E S.home (.level S.base) = true := by
  rw [acc_eq fit F C hS (a := []) (sp := S.home) rfl]
  simp

omit fit F C in
theorem base_zero {S : Svc} (hk : S.back = false) : S.base = 0 := by simp [Svc.base, hk]

theorem acc_home {S : Svc} (hS : Act S) (hk : S.back = false) : Env.accepts E S.home (.level 0) = true := by
  have := acc_base fit F C hS
  rwa [base_zero hk] at this

theorem acc_called {S : Svc} {sp : Space} (h : Called sp S) : Env.accepts E sp (.level 0) = true := by
  rcases (C.called sp S h).2.2 with e | ⟨S', h1, hk, e⟩
  · subst e; rfl
  · subst e; exact acc_home fit F C h1 hk

theorem acc_app {sp : Space} (h : sp ≠ []) : Env.accepts E sp .app = false := by
  cases sp with
  | nil => exact absurd rfl h
  | cons => rfl

/-- From a service's namespace outwards, nodes of level `l` above the service's are first accepted `l` levels further out. -/
theorem climb_home {P : Space → Prop} {S : Svc} (hS : Act S) (l : Nat)
    (step : ∀ x r, 0 < l → Path Act (x :: r) → Env.accepts E (x :: r) (.level (S.base + l)) = false → P r → P (x :: r))
    (h0 : P (S.home.drop l)) : P S.home := by
  have : ∀ (q a : Space), S.home = a ++ q → a.length ≤ l → P q := by
    intro q
    induction q with
    | nil =>
      intro a ea hl
      rw [ea, List.drop_eq_nil_of_le (by simpa using hl)] at h0
      exact h0
    | cons x r ih =>
      intro a ea hl
      by_cases hal : a.length = l
      · rw [ea, ← hal, List.drop_left] at h0
        exact h0
      · refine step x r (by omega) (.drop hS ea) ?_ (ih (a ++ [x]) (by simp [ea]) (by simp; omega))
        rw [acc_eq fit F C hS ea]
        simp; omega
  exact this S.home [] rfl (by simp)

/-- From a site outwards, nodes of level `l` are first accepted `l` levels further out. -/
theorem climb_ind {P : Space → Prop} {sp : Space} (hs : sp = [] ∨ ∃ S, Act S ∧ S.back = false ∧ sp = S.home) (l : Nat)
    (step : ∀ x r, 0 < l → Path Act (x :: r) → Env.accepts E (x :: r) (.level l) = false → P r → P (x :: r)) (h0 : P (sp.drop l)) : P sp := by
  rcases hs with e | ⟨S, hS, hk, e⟩
  · subst e; simpa using h0
  · subst e
    refine climb_home fit F C hS l (fun x r h1 h2 h3 => step x r h1 h2 ?_) h0
    rwa [base_zero hk, Nat.zero_add] at h3

/-! ### Metadata, addresses -/

theorem den_app {n : Name} {k : Kind} {t : Tree} (hl : w.env.look n = some (n, .app, some k)) (hb : Built E L 0 [] n k t) :
    ∀ sp : Space, Path Act sp → (∀ a sp', sp = a ++ sp' → Role w Act Called sp' n k) → ∃ d, Den E L d sp n t
  | [], _, hr => ⟨_, .built (lawful_node (.inl rfl) hl (hr [] [] rfl)) hl rfl hb⟩
  | x :: r, hp, hr => by
    obtain ⟨d, hd⟩ := den_app hl hb r hp.tail fun a sp' e => hr (x :: a) sp' (by simp [e])
    exact ⟨_, .climb (lawful_node hp hl (hr [] _ rfl)) hl rfl hd⟩

theorem den_vis {S : Svc} (hS : Act S) (hk : S.back = false) {sp : Space} (hp : Path Act sp) : ∃ d, Den E L d sp (visN S.name) (.visibility (visN S.name)) :=
  den_app fit F C (look_node ((F.services S (C.act S hS)).base hk).vis) .visibility sp hp fun _ _ _ => ⟨S, hS, hk, rfl⟩

theorem den_addr {S : Svc} (hS : Act S) (hr : S.rpc = true) {sp : Space} (hp : Path Act sp) :
    ∃ d, Den E L d sp S.addrN (.addr S.addrN) :=
  den_app fit F C (look_node ((F.services S (C.act S hS)).rpc hr).addr) .addr sp hp fun _ _ _ => ⟨S, hS, hr, rfl⟩

theorem den_bind {S : Svc} (hS : Act S) (hr : S.rpc = true) {a sp : Space} (hp : S.home = a ++ sp) :
    ∃ d, Den E L d sp (bindName S.addrN) (.bind (bindName S.addrN)) :=
  den_app fit F C (look_node ((F.services S (C.act S hS)).rpc hr).bind) .bind sp (.drop hS hp)
    fun a' sp' e => ⟨S, a ++ a', hS, hr, rfl, by simp [hp, e]⟩

theorem path_called {S : Svc} {sp : Space} (h : Called sp S) : Path Act sp := by
  rcases (C.called sp S h).2.2 with e | ⟨S', h1, _, e⟩
  · exact .inl e
  · subst e; exact .home h1

theorem path_called' {S : Svc} {a sp : Space} (h : Called (a ++ sp) S) : Path Act sp := by
  rcases (C.called _ S h).2.2 with e | ⟨S', h1, _, e⟩
  · exact .inl (List.append_eq_nil_iff.1 e).2
  · exact .drop h1 e.symm

theorem den_dial {S : Svc} {a sp : Space} (hc : Called (a ++ sp) S) (hr : S.rpc = true) :
    ∃ d, Den E L d sp (dialName S.addrN) (.dial (dialName S.addrN)) :=
  den_app fit F C (look_node ((F.services S (C.act S (C.called _ _ hc).1)).rpc hr).dial) .dial sp (path_called' fit F C hc)
    fun a' sp' e => ⟨S, a ++ a', by rw [List.append_assoc, ← e]; exact hc, hr, rfl⟩

/-! ### Servers -/

omit fit F C in
theorem service_ctr {t : Tree} (h : t.isService = true) : t.isCtr = false := by
  cases t <;> first | rfl | cases h

omit fit F C in
theorem binder_back {S : Svc} (hk : S.back = true) : S.binder = .container S.addrN := by simp [Svc.binder, hk]

omit fit F C in
theorem binder_front {S : Svc} (hk : S.back = false) : S.binder = .grpcServer (topOf S.name (servers S.name S.wraps)) S.addrN := by
  simp [Svc.binder, hk]

theorem front_of {S : Svc} (hS : Act S) (hr : S.rpc = false) : S.back = false := by
  cases hk : S.back with
  | false => rfl
  | true => rw [(fit.backs S (C.act S hS) hk).1] at hr; cases hr

theorem den_check {S : Svc} (hS : Act S) (hk : S.back = false) {d : Nat} {t : Tree} (dh : Den E L d S.home (handlerN S.name) t) (hs : t.isService = true) :
    ∃ d', Den E L d' S.home (checkN S.name) t := by
  obtain ⟨dv, hv⟩ := den_vis fit F C hS hk (sp := S.home) (.home hS)
  have hl := look_node ((F.services S (C.act S hS)).base hk).check
  exact ⟨_, .built (lawful_node (.home hS) hl ⟨S, hS, hk, rfl, rfl⟩) hl (acc_home fit F C hS hk) (.check hv dh (service_ctr hs))⟩

theorem end_dst {S : Svc} (hS : Act S) (hk : S.back = false) : End w (dstN S.name) :=
  .inr ⟨_, _, _, ((F.services S (C.act S hS)).base hk).dst, ((F.services S (C.act S hS)).base hk).check⟩

theorem den_dst {S : Svc} (hS : Act S) (hk : S.back = false) {d : Nat} {t : Tree} (dh : Den E L d S.home (handlerN S.name) t) (hs : t.isService = true) :
    ∃ d', Den E L d' S.home (dstN S.name) t := by
  obtain ⟨d', h'⟩ := den_check fit F C hS hk dh hs
  exact den_alias ((F.services S (C.act S hS)).base hk).dst (.inl ⟨_, _, ((F.services S (C.act S hS)).base hk).check⟩) (.home hS) h'

theorem den_tower {S : Svc} (hS : Act S) (hk : S.back = false) : ∀ (ss : List Name) (bot : Name) (t : Tree) (d : Nat), Tower (tab w.spec) bot ss →
    (∀ x ∈ ss, x ∈ servers S.name S.wraps) → Den E L d S.home bot t → t.isService = true → ∀ l1 l2, ss = l1 ++ l2 →
    (∃ d', Den E L d' S.home (l1.getLastD bot) (wrapOut l1 t)) ∧ (wrapOut l1 t).isService = true
  | _, _, _, d, _, _, hd, hs, [], _, _ => ⟨⟨d, hd⟩, hs⟩
  | [], _, _, _, _, _, _, _, _ :: _, _, e => by cases e
  | x :: ss, bot, t, d, htow, hm, hd, hs, y :: l1, l2, e => by
    simp only [List.cons_append, List.cons.injEq] at e
    obtain ⟨rfl, e⟩ := e
    have hl := look_node htow.1
    have dx : Den E L (d + 1) S.home x (.wrap x t) :=
      .built (lawful_node (.home hS) hl (.inr ⟨S, hS, hk, hm x (by simp), rfl⟩)) hl (acc_home fit F C hS hk) (.wrap hd hs)
    have := den_tower hS hk ss x (.wrap x t) (d + 1) htow.2 (fun z hz => hm z (by simp [hz])) dx rfl l1 l2 e
    rw [List.getLastD_cons]
    exact this

theorem den_top {S : Svc} (hS : Act S) (hk : S.back = false) {d : Nat} {t : Tree} (dh : Den E L d S.home (handlerN S.name) t) (hs : t.isService = true) :
    (∃ d', Den E L d' S.home (topOf S.name (servers S.name S.wraps)) (wrapOut (servers S.name S.wraps) t)) ∧
      (wrapOut (servers S.name S.wraps) t).isService = true := by
  obtain ⟨d', h'⟩ := den_dst fit F C hS hk dh hs
  exact den_tower fit F C hS hk _ _ t d' ((F.services S (C.act S hS)).tower hk) (fun _ h => h) h' hs _ [] (by simp)

omit fit F C in
theorem tower_last {g : Name → Option Ent} : ∀ (ss : List Name) (bot : Name), Tower g bot ss →
    ss.getLastD bot = bot ∨ ∃ b, g (ss.getLastD bot) = some (.node (.level 0) (some (.wrap b)))
  | [], _, _ => .inl rfl
  | x :: ss, bot, h => by
    rw [List.getLastD_cons]
    rcases tower_last ss x h.2 with e | e
    · rw [e]; exact .inr ⟨_, h.1⟩
    · exact .inr e

theorem end_top {S : Svc} (hS : Act S) (hk : S.back = false) : End w (topOf S.name (servers S.name S.wraps)) := by
  rcases tower_last _ _ ((F.services S (C.act S hS)).tower hk) with e | ⟨b, e⟩
  · unfold topOf; rw [e]; exact end_dst fit F C hS hk
  · exact .inl ⟨_, _, e⟩

theorem inst_top {S : Svc} (hS : Act S) (hk : S.back = false) : InstOk E S.home (topOf S.name (servers S.name S.wraps)) := by
  rcases tower_last _ _ ((F.services S (C.act S hS)).tower hk) with e | ⟨b, e⟩
  · unfold topOf; rw [e]
    have b := ((F.services S (C.act S hS)).base hk)
    exact .alias (look_alias b.dst b.check) (alias_ne b.dst b.check) (.built (look_node b.check) (acc_home fit F C hS hk))
  · exact .built (look_node e) (acc_home fit F C hS hk)

theorem den_server {S : Svc} (hS : Act S) {t : Tree}
    (dh : S.back = false → ∃ d, Den E L d S.home (handlerN S.name) t ∧ t.isService = true) :
    ∃ d', Den E L d' S.home S.server (S.servedTree t) := by
  unfold Svc.server Svc.servedTree
  cases hk : S.back with
  | true =>
    have hr := (fit.backs S (C.act S hS) hk).1
    rw [if_pos hr, if_pos rfl]
    have R := (F.services S (C.act S hS)).rpc hr
    obtain ⟨d2, h2⟩ := den_addr fit F C hS hr (sp := S.home) (.home hS)
    obtain ⟨d3, h3⟩ := den_bind fit F C hS hr (a := []) (sp := S.home) rfl
    have hl := look_node R.server
    rw [binder_back hk] at hl
    exact ⟨_, .built (lawful_node (.home hS) hl ⟨S, hS, hk, hr, rfl, .inl rfl⟩) hl (acc_base fit F C hS) (.container h2 h3)⟩
  | false =>
    simp only [Bool.false_eq_true, if_false]
    obtain ⟨d, dh, hs⟩ := dh hk
    obtain ⟨⟨d1, h1⟩, hs1⟩ := den_top fit F C hS hk dh hs
    split
    · next hr =>
      have R := (F.services S (C.act S hS)).rpc hr
      obtain ⟨d2, h2⟩ := den_addr fit F C hS hr (sp := S.home) (.home hS)
      obtain ⟨d3, h3⟩ := den_bind fit F C hS hr (a := []) (sp := S.home) rfl
      have hl := look_node R.server
      rw [binder_front hk, base_zero hk] at hl
      exact ⟨_, .built (lawful_node (.home hS) hl ⟨S, hS, hk, hr, rfl, rfl⟩) hl (acc_home fit F C hS hk) (.grpcServer h1 hs1 h2 h3)⟩
    · exact ⟨_, h1⟩

theorem inst_server {S : Svc} (hS : Act S) : InstOk E S.home S.server := by
  unfold Svc.server
  split
  · next hr => exact .built (look_node ((F.services S (C.act S hS)).rpc hr).server) (acc_base fit F C hS)
  · next hr =>
    refine inst_top fit F C hS ?_
    cases hk : S.back with
    | false => rfl
    | true => exact absurd (fit.backs S (C.act S hS) hk).1 hr

/-! ### Clients -/

theorem den_callee {S : Svc} {sp : Space} (hc : Called sp S) {t : Tree}
    (hsrv : S.rpc = false → ∃ d, Den E L d S.home (handlerN S.name) t ∧ t.isService = true) :
    (∃ d', Den E L d' sp S.callee (S.calledTree t)) ∧ (S.calledTree t).isService = true ∧ End w S.callee := by
  obtain ⟨hS, hu, _⟩ := C.called sp S hc
  unfold Svc.callee Svc.calledTree
  cases hr : S.rpc with
  | true =>
    have R := (F.services S (C.act S hS)).rpc hr
    have hp := path_called fit F C hc
    obtain ⟨d1, h1⟩ := den_addr fit F C hS hr hp
    obtain ⟨d2, h2⟩ := den_alias R.next (.inl ⟨_, _, R.addr⟩) hp h1
    obtain ⟨d3, h3⟩ := den_dial fit F C (a := []) hc hr
    have hl := look_node R.client
    exact ⟨⟨_, .built (lawful_node hp hl ⟨S, hc, hr, rfl⟩) hl (acc_called fit F C hc) (.grpcClient h2 h3)⟩, rfl, .inl ⟨_, _, R.client⟩⟩
  | false =>
    obtain ⟨d, hd, hs⟩ := hsrv hr
    have e : sp = S.home := by
      rcases hu with ⟨_, e⟩ | ⟨e, _⟩
      · exact e
      · rw [hr] at e; cases e
    subst e
    have hk := front_of fit F C hS hr
    obtain ⟨h1, hs1⟩ := den_top fit F C hS hk hd hs
    exact ⟨h1, hs1, end_top fit F C hS hk⟩

theorem wrapIn_service {xs : List Name} {t : Tree} (h : t.isService = true) : (wrapIn xs t).isService = true := by
  cases xs with
  | nil => exact h
  | cons => rfl

theorem chain_end {S : Svc} {sp : Space} (hc : Called sp S) (hk : S.back = false) {i : Name} {d : Nat} {t : Tree}
    (di : Den E L d sp i t) (hs : t.isService = true) (he : End w i) : ∀ (cs : List Name) (st : Name),
    Chain (tab w.spec) st cs i → (∀ x ∈ cs, x ∈ clients S.name S.wraps) →
    (∃ d', Den E L d' sp st (wrapIn cs t)) ∧ ∀ l1 x l2, cs = l1 ++ x :: l2 → ∃ d', Den E L d' sp x (wrapIn (x :: l2) t)
  | [], st, h, _ => ⟨den_alias h he (path_called fit F C hc) di, fun l1 x l2 e => by simp at e⟩
  | x :: cs, st, h, hm => by
    obtain ⟨h1, h2, h3⟩ := h
    obtain ⟨⟨d', hd'⟩, hrest⟩ := chain_end hc hk di hs he cs (nextOf x) h3 fun y hy => hm y (by simp [hy])
    have hp := path_called fit F C hc
    have hl := look_node h2
    have dx : Den E L (d' + 1) sp x (wrapIn (x :: cs) t) :=
      .built (lawful_node hp hl (.inl ⟨S, hc, hk, hm x (by simp)⟩)) hl (acc_called fit F C hc) (.wrap hd' (wrapIn_service fit F C hs))
    refine ⟨den_alias h1 (.inl ⟨_, _, h2⟩) hp dx, ?_⟩
    intro l1 y l2 e
    cases l1 with
    | nil => simp at e; obtain ⟨rfl, rfl⟩ := e; exact ⟨_, dx⟩
    | cons z l1 => simp at e; obtain ⟨rfl, rfl⟩ := e; exact hrest l1 y l2 rfl

theorem client_ctr {S : Svc} {t : Tree} (h : (S.calledTree t).isService = true) : (S.clientTree t).isCtr = false := by
  unfold Svc.clientTree
  split
  · exact service_ctr h
  · rfl

theorem den_client {S : Svc} {sp : Space} (hc : Called sp S) {t : Tree}
    (hsrv : S.rpc = false → ∃ d, Den E L d S.home (handlerN S.name) t ∧ t.isService = true) :
    ((∃ d', Den E L d' sp S.name (S.clientTree t)) ∧ (S.clientTree t).isCtr = false) ∧
      (S.back = false → (∃ d', Den E L d' sp (clientN S.name) (S.clientTree t)) ∧
      (∀ l1 x l2, clients S.name S.wraps = l1 ++ x :: l2 → ∃ d', Den E L d' sp x (wrapIn (x :: l2) (S.calledTree t)))) := by
  obtain ⟨⟨d, hd⟩, hs, he⟩ := den_callee fit F C hc hsrv
  have hS := (C.called _ _ hc).1
  have H := F.services S (C.act S hS)
  have hp := path_called fit F C hc
  have hctr := client_ctr fit F C hs
  obtain ⟨p, e1, e2, _, _⟩ := H.ptr
  have hl' := look_node H.self
  have fin : ∀ {d2}, Den E L d2 sp (srcN S.name) (S.clientTree t) → ∃ d', Den E L d' sp S.name (S.clientTree t) := by
    intro d2 h2
    rw [← e2] at h2
    exact ⟨_, .built (lawful_node hp hl' ⟨S, hc, rfl⟩) hl' (acc_called fit F C hc) (.ptr e1 h2 hctr)⟩
  cases hk : S.back with
  | true =>
    have hr := (fit.backs S (C.act S hS) hk).1
    have e : S.callee = clientN S.name := by simp [Svc.callee, Svc.rpcClientN, hr, hk]
    have e' : S.clientTree t = S.calledTree t := by simp [Svc.clientTree, hk]
    rw [e] at hd he
    obtain ⟨d2, h2⟩ := den_alias H.src he hp hd
    rw [← e'] at h2
    exact ⟨⟨fin h2, hctr⟩, fun e => by cases e⟩
  | false =>
    obtain ⟨⟨d1, h1⟩, hx⟩ := chain_end fit F C hc hk hd hs he _ _ (H.chain hk) fun _ h => h
    have hl := look_node (H.base hk).client
    have e' : S.clientTree t = wrapIn (clientN S.name :: clients S.name S.wraps) (S.calledTree t) := by simp [Svc.clientTree, hk]
    have dc : Den E L (d1 + 1) sp (clientN S.name) (S.clientTree t) := by
      rw [e']
      exact .built (lawful_node hp hl ⟨S, hc, hk, rfl⟩) hl (acc_called fit F C hc) (.client h1 (service_ctr (wrapIn_service fit F C hs)))
    obtain ⟨d2, h2⟩ := den_alias H.src (.inl ⟨_, _, (H.base hk).client⟩) hp dc
    exact ⟨⟨fin h2, hctr⟩, fun _ => ⟨⟨_, dc⟩, hx⟩⟩

/-! ### Handlers -/

omit fit F C in
theorem self_name (S : Svc) : S.name ∈ S.names := by
  unfold Svc.names
  simp only [List.mem_append]
  exact .inl (.inl (self_core S))

theorem den_args {S : Svc} (hS : Act S) (H : Svc → Tree) : ∀ l : List (Bool × Name),
    (∀ p ∈ l, (p.1 = true ∧ A.Free p.2) ∨
      ∃ U ∈ A.svcs, U.name = p.2 ∧ (∃ d, Den E L d S.home U.name (U.clientTree (H U))) ∧ (U.clientTree (H U)).isCtr = false) →
    ∃ d, Args E L d S.home l (l.map fun p => A.argTree H p.2)
  | [], _ => ⟨0, .nil⟩
  | (str, a) :: l, h => by
    obtain ⟨d, hd⟩ := den_args hS H l fun p hp => h p (List.mem_cons_of_mem _ hp)
    rw [List.map_cons]
    by_cases hu : ∃ U ∈ A.svcs, U.name = a
    · rcases h (str, a) (by simp) with ⟨_, hf⟩ | ⟨U, hU, e, ⟨d', hd'⟩, hct⟩
      · obtain ⟨U, hU, e⟩ := hu
        refine absurd ?_ (hf.1 U hU)
        simp only
        rw [← e]
        exact self_name U
      · simp only at e
        have : A.argTree H a = U.clientTree (H U) := by
          unfold App.argTree
          cases e' : A.svcs.find? (fun U => U.name == a) with
          | none =>
            have := List.find?_eq_none.1 e' U hU
            simp [e] at this
          | some V =>
            have h1 := List.find?_some e'
            have h2 := List.mem_of_find?_eq_some e'
            have : V = U := fit.one V h2 U hU ((by simpa using h1 : V.name = a).trans e.symm)
            subst this; rfl
        simp only [this]
        subst e
        exact ⟨_, .node (fun _ => by rw [look_node (F.services U hU).self]; simp) hd' hct hd⟩
    · rcases h (str, a) (by simp) with ⟨e, hf⟩ | ⟨U, hU, e, _⟩
      · simp only at e hf
        subst e
        have : A.argTree H a = .value a := by
          unfold App.argTree
          cases e' : A.svcs.find? (fun U => U.name == a) with
          | none => rfl
          | some V => exact absurd ⟨V, List.mem_of_find?_eq_some e', by simpa using List.find?_some e'⟩ hu
        simp only [this]
        exact ⟨_, .value (F.free a hf) hd⟩
      · exact absurd ⟨U, hU, e⟩ hu

theorem map_zip_right {α β γ : Type} (f : β → γ) : ∀ (l : List α) (r : List β), l.length = r.length →
    (l.zip r).map (fun p => f p.2) = r.map f
  | [], [], _ => rfl
  | [], _ :: _, h => by cases h
  | _ :: _, [], h => by cases h
  | _ :: l, _ :: r, h => by simp [map_zip_right f l r (by simpa using h)]

theorem den_handler_of {S : Svc} (hS : Act S) (hk : S.back = false) (H : Svc → Tree)
    (hH : ∀ U, Act U → (∃ str, (str, U.name) ∈ S.ctor.zip S.args) → U.rpc = false →
      ∃ d, Den E L d U.home (handlerN U.name) (H U) ∧ (H U).isService = true) :
    ∃ d, Den E L d S.home (handlerN S.name) (.handler S.name (S.args.map (A.argTree H))) := by
  obtain ⟨hlen, hargs⟩ := fit.args S (C.act S hS)
  obtain ⟨d, hd⟩ := den_args fit F C hS H (S.ctor.zip S.args) (by
    rintro ⟨str, a⟩ hp
    rcases hargs str a hp with h | ⟨U, hU, e, _, _⟩
    · exact .inl h
    · refine .inr ⟨U, hU, e, ?_⟩
      have hc := C.args S str U hS hU (by rw [e]; exact hp)
      exact (den_client fit F C hc fun hr => hH U (C.called _ _ hc).1 ⟨str, by rw [e]; exact hp⟩ hr).1)
  rw [map_zip_right fit F C (A.argTree H) _ _ hlen] at hd
  have hl := look_node ((F.services S (C.act S hS)).base hk).handler
  exact ⟨_, .built (lawful_node (.home hS) hl ⟨S, hS, hk, rfl, rfl, rfl⟩) hl (acc_home fit F C hS hk) (.handler hlen hd)⟩

theorem den_handler_ex : ∀ (N : Nat) (S : Svc), Act S → S.back = false → rank S.name < N →
    ∃ d ts, Den E L d S.home (handlerN S.name) (.handler S.name ts)
  | 0, _, _, _, h => by omega
  | N + 1, S, hS, hk, hN => by
    have ih : ∀ U : Svc, ∃ t, Act U → U.back = false → rank U.name < N → t.isService = true ∧ ∃ d, Den E L d U.home (handlerN U.name) t := by
      intro U
      by_cases h : Act U ∧ U.back = false ∧ rank U.name < N
      · obtain ⟨d, ts, hd⟩ := den_handler_ex N U h.1 h.2.1 h.2.2
        exact ⟨_, fun _ _ _ => ⟨rfl, d, hd⟩⟩
      · exact ⟨.value "", fun h1 h2 h3 => absurd ⟨h1, h2, h3⟩ h⟩
    obtain ⟨H, hH⟩ := Classical.skolem.1 ih
    obtain ⟨d, hd⟩ := den_handler_of fit F C hS hk H (by
      rintro U hU ⟨str, hp⟩ hr
      rcases (fit.args S (C.act S hS)).2 str _ hp with ⟨_, hf⟩ | ⟨V, hV, e, _, hrk⟩
      · exact absurd (self_name U) (hf.1 U (C.act U hU))
      · have := fit.one V hV U (C.act U hU) e
        subst this
        obtain ⟨h1, d, h2⟩ := hH V hU (front_of fit F C hU hr) (by have := hrk hr; omega)
        exact ⟨d, h2, h1⟩)
    exact ⟨d, _, hd⟩

/-- The services: each is built from the clients of the services that its arguments name. -/
theorem den_handlers : ∃ H : Svc → Tree, ∀ S, Act S → S.back = false → H S = .handler S.name (S.args.map (A.argTree H)) ∧
    ∃ d, Den E L d S.home (handlerN S.name) (H S) := by
  have ex : ∀ U : Svc, ∃ t, Act U → U.back = false → t.isService = true ∧ ∃ d, Den E L d U.home (handlerN U.name) t := by
    intro U
    by_cases h : Act U ∧ U.back = false
    · obtain ⟨d, ts, hd⟩ := den_handler_ex fit F C (rank U.name + 1) U h.1 h.2 (by omega)
      exact ⟨_, fun _ _ => ⟨rfl, d, hd⟩⟩
    · exact ⟨.value "", fun h1 h2 => absurd ⟨h1, h2⟩ h⟩
  obtain ⟨H, hH⟩ := Classical.skolem.1 ex
  refine ⟨H, ?_⟩
  intro S hS hk
  obtain ⟨h1, d, hd⟩ := hH S hS hk
  obtain ⟨d', hd'⟩ := den_handler_of fit F C hS hk H fun U hU _ hr => by
    obtain ⟨h1, d, h2⟩ := hH U hU (front_of fit F C hU hr)
    exact ⟨d, h2, h1⟩
  exact ⟨(hd.det hd').2, d, hd⟩

/-! ### Entering namespaces -/

theorem acc_place {S : Svc} (hS : Act S) {a b : List Name} (e : S.places = a ++ b) :
    Env.accepts E (b ++ S.ctx) (.level (S.base + a.length)) = true := by
  rw [acc_eq fit F C hS (a := a) (sp := b ++ S.ctx) (by simp [Svc.home, e])]
  simp

theorem path_place {S : Svc} (hS : Act S) {a b : List Name} (e : S.places = a ++ b) : Path Act (b ++ S.ctx) :=
  .drop hS (a := a) (by simp [Svc.home, e])

theorem inst_under {S : Svc} (hS : Act S) {a b : List Name} (e : S.places = a ++ b) : InstOk E (b ++ S.ctx) (S.under a) := by
  rcases List.eq_nil_or_concat a with rfl | ⟨a', x, rfl⟩
  · have : b ++ S.ctx = S.home := by simp [Svc.home, e]
    rw [this]
    exact inst_server fit F C hS
  · rw [List.concat_eq_append] at e ⊢
    rw [under_snoc]
    have := (F.services S (C.act S hS)).enters a' x b (by simp [e])
    have ha := acc_place fit F C hS e
    simp only [List.length_append, List.length_cons, List.length_nil, Nat.zero_add, ← Nat.add_assoc] at ha
    exact .built (look_node this) ha

theorem den_space {S : Svc} (hS : Act S) {a b : List Name} {x : Name} (e : S.home = a ++ x :: b) : ∃ d, Den E L d b x (.space x) := by
  have hl := look_space fit F C hS e
  have ha : Env.accepts E b (.level (S.base + a.length + 1)) = true := by
    rw [acc_eq fit F C hS (a := a ++ [x]) (sp := b) (by simp [e])]
    simp [Nat.add_assoc]
  exact ⟨_, .built (lawful_node (.drop hS (a := a ++ [x]) (by simp [e])) hl (.drop hS e)) hl ha .space⟩

theorem den_under {S : Svc} (hS : Act S) {t : Tree} {d : Nat} (ds : Den E L d S.home S.server t) (a : List Name) :
    ∀ b, S.places = a ++ b → ∃ d', Den E L d' (b ++ S.ctx) (S.under a) t := by
  induction a using Wiring.concat_induction with
  | nil =>
    intro b e
    have : b ++ S.ctx = S.home := by simp [Svc.home, e]
    rw [this]
    exact ⟨d, ds⟩
  | append a x ih =>
    intro b e
    have e' : S.places = a ++ x :: b := by simp [e]
    rw [under_snoc]
    obtain ⟨d1, h1⟩ := ih (x :: b) e'
    have hl := look_node ((F.services S (C.act S hS)).enters a x b e')
    have hh : S.home = a ++ x :: (b ++ S.ctx) := by simp [Svc.home, e']
    obtain ⟨d2, h2⟩ := den_space fit F C hS hh
    have ha := acc_place fit F C hS e
    simp only [List.length_append, List.length_cons, List.length_nil, Nat.zero_add, ← Nat.add_assoc] at ha
    exact ⟨_, .built (lawful_node (path_place fit F C hS e) hl ⟨S, a, b, hS, e', rfl⟩) hl ha
      (.enter (look_space fit F C hS hh) ha h2 (inst_under fit F C hS e') h1)⟩

theorem binds_under {S : Svc} (hS : Act S) (hr : S.rpc = true) (a : List Name) :
    ∀ b, S.places = a ++ b → Binds E L (b ++ S.ctx) (S.under a) S.addrN := by
  induction a using Wiring.concat_induction with
  | nil =>
    intro b e
    have : b ++ S.ctx = S.home := by simp [Svc.home, e]
    rw [this]
    have hu : S.under [] = S.serverN := by simp [Svc.under, Svc.server, hr]
    rw [hu]
    obtain ⟨d, hd⟩ := den_addr fit F C hS hr (sp := S.home) (.home hS)
    have hl := look_node ((F.services S (C.act S hS)).rpc hr).server
    cases hk : S.back with
    | true => rw [binder_back hk] at hl; exact .container hl (acc_base fit F C hS) hd
    | false => rw [binder_front hk] at hl; exact .server hl (acc_base fit F C hS) hd
  | append a x ih =>
    intro b e
    have e' : S.places = a ++ x :: b := by simp [e]
    rw [under_snoc]
    have hl := look_node ((F.services S (C.act S hS)).enters a x b e')
    have ha := acc_place fit F C hS e
    simp only [List.length_append, List.length_cons, List.length_nil, Nat.zero_add, ← Nat.add_assoc] at ha
    exact .enter hl ha (ih (x :: b) e')

/-- What leads to a service in a namespace is defined there. -/
theorem node_under {S : Svc} (hS : Act S) (hr : S.rpc = true) {a b : List Name} (e : S.places = a ++ b) :
    ∃ ty k, w.env.look (S.under a) = some (S.under a, ty, k) ∧ Env.accepts E (b ++ S.ctx) ty = true := by
  rcases List.eq_nil_or_concat a with rfl | ⟨a', x, rfl⟩
  · have h1 : b ++ S.ctx = S.home := by simp [Svc.home, e]
    have h2 : S.under [] = S.serverN := by simp [Svc.under, Svc.server, hr]
    rw [h1, h2]
    exact ⟨_, _, look_node ((F.services S (C.act S hS)).rpc hr).server, acc_base fit F C hS⟩
  · rw [List.concat_eq_append] at e ⊢
    rw [under_snoc]
    have ha := acc_place fit F C hS e
    simp only [List.length_append, List.length_cons, List.length_nil, Nat.zero_add, ← Nat.add_assoc] at ha
    exact ⟨_, _, look_node ((F.services S (C.act S hS)).enters a' x b (by simp [e])), ha⟩

/-- From where a service is called, its server is found. -/
theorem called_under {S : Svc} {sp : Space} (hc : Called sp S) (hr : S.rpc = true) {t : Tree} {d : Nat} (ds : Den E L d S.home S.server t) :
    (∃ d', Den E L d' sp (S.under S.places) t) ∧ Binds E L sp (S.under S.places) S.addrN ∧ InstOk E sp (S.under S.places) := by
  obtain ⟨hS, hu, hsite⟩ := C.called sp S hc
  have hdrop : sp.drop (S.base + S.places.length) = S.ctx := by
    rcases hu with ⟨hk, e⟩ | ⟨_, e⟩
    · rw [e, base_zero hk]; simp [Svc.home]
    · exact e
  have h0 : (∃ d', Den E L d' (sp.drop (S.base + S.places.length)) (S.under S.places) t) ∧
      Binds E L (sp.drop (S.base + S.places.length)) (S.under S.places) S.addrN ∧ InstOk E (sp.drop (S.base + S.places.length)) (S.under S.places) := by
    rw [hdrop]
    exact ⟨den_under fit F C hS ds S.places [] (by simp), binds_under fit F C hS hr S.places [] (by simp),
      inst_under fit F C hS (b := []) (by simp)⟩
  refine climb_ind (P := fun q => (∃ d', Den E L d' q (S.under S.places) t) ∧ Binds E L q (S.under S.places) S.addrN ∧
    InstOk E q (S.under S.places)) fit F C hsite (S.base + S.places.length) ?_ h0
  rintro x r hlen hp ha ⟨⟨d', hd'⟩, hb, hi⟩
  rcases List.eq_nil_or_concat S.places with e | ⟨a, y, e⟩
  · have hk : S.back = true := by
      cases hk : S.back with
      | true => rfl
      | false => rw [e, base_zero hk] at hlen; simp at hlen
    have hl := look_node ((F.services S (C.act S hS)).rpc hr).server
    have hun : S.under S.places = S.serverN := by simp [e, Svc.under, Svc.server, hr]
    rw [hun] at hd' hb hi ⊢
    rw [e, List.length_nil, Nat.add_zero] at ha
    rw [binder_back hk] at hl
    have hb2 : S.base = 2 := by simp [Svc.base, hk]
    exact ⟨⟨_, .climb (lawful_node hp hl ⟨S, hS, hk, hr, rfl, .inr (hb2 ▸ ha)⟩) hl ha hd'⟩, .climb hl ha hb, .proxy hl ha rfl hi⟩
  · rw [List.concat_eq_append] at e
    have hl := look_node ((F.services S (C.act S hS)).enters a y [] e)
    have hun : S.under S.places = subN S.name y := by rw [e, under_snoc]
    have hlv : S.places.length = a.length + 1 := by simp [e]
    rw [hun] at hd' hb hi ⊢
    rw [hlv, ← Nat.add_assoc] at ha
    exact ⟨⟨_, .climb (lawful_node hp hl ⟨S, a, [], hS, e, rfl⟩) hl ha hd'⟩, .climb hl ha hb, .proxy hl ha rfl hi⟩

/-! ### Soundness -/

theorem names_one {S S' : Svc} (hS : S ∈ A.svcs) (hS' : S' ∈ A.svcs) {n : Name} (h : n ∈ S.names) (h' : n ∈ S'.names) : S = S' := by
  have h1 := fam_names (fit.own S hS).1 n h
  have h2 := fam_names (fit.own S' hS').1 n h'
  exact fit.one S hS S' hS' (String.toList_inj.1 (h1.symm.trans h2))

omit fit F C in
theorem base_names {S : Svc} (hk : S.back = false) {n : Name} (h : n ∈ baseNames S.name) : n ∈ S.names := by
  unfold Svc.names
  simp only [List.mem_append]
  refine .inl (.inl ?_)
  unfold Svc.coreNames
  rw [if_neg (by simp [hk])]
  exact wrapNames_base h

/-- All namespaces around a namespace, and itself. -/
def ends : Space → List Space
  | [] => [[]]
  | x :: r => (x :: r) :: ends r

omit fit F C in
theorem mem_ends (sp : Space) : ∀ a : Space, sp ∈ ends (a ++ sp)
  | [] => by cases sp <;> simp [ends]
  | x :: a => by
    simp only [List.cons_append, ends, List.mem_cons]
    exact .inr (mem_ends sp a)

/-- An application that fits gives a wiring spec whose compilation succeeds. -/
theorem sound : Sound E L (A.svcs.flatMap fun S => ends S.home)
    (([] :: A.svcs.map Svc.home).flatMap fun sp => A.svcs.map fun S => (sp, S.name)) := by
  obtain ⟨H, hH⟩ := den_handlers fit F C
  have hserv : ∀ S, Act S → S.back = false → (H S).isService = true := fun S hS hk => by rw [(hH S hS hk).1]; rfl
  have hden : ∀ S, Act S → S.back = false → ∃ d, Den E L d S.home (handlerN S.name) (H S) ∧ (H S).isService = true := fun S hS hk =>
    let ⟨d, hd⟩ := (hH S hS hk).2
    ⟨d, hd, hserv S hS hk⟩
  refine ⟨?_, ?_, ?_, ?_⟩
  · intro sp sp' c ty md target hl h h'
    obtain ⟨S, hS, hk, e, e1⟩ := h.2 _ _ hl
    obtain ⟨S', hS', hk', e', e1'⟩ := h'.2 _ _ hl
    have := names_one fit F C (C.act S hS) (C.act S' hS') (n := c) (e ▸ base_names hk (by simp [baseNames]))
      (e' ▸ base_names hk' (by simp [baseNames]))
    rw [e1, e1', this]
  · intro h h' sp sp' c c' ty ty' md md' target target' v hl hl' hc hc' hd hd'
    obtain ⟨S, hS, hk, e, e1⟩ := hc.2 _ _ hl
    obtain ⟨S', hS', hk', e', e1'⟩ := hc'.2 _ _ hl'
    subst e e' e1 e1'
    rw [look_node ((F.services S (C.act S hS)).base hk).check] at hl
    rw [look_node ((F.services S' (C.act S' hS')).base hk').check] at hl'
    cases hl; cases hl'
    obtain ⟨_, h1⟩ := den_vis fit F C hS hk (sp := S.home) (.home hS)
    obtain ⟨_, h2⟩ := den_vis fit F C hS' hk' (sp := S'.home) (.home hS')
    have e1 := (hd.det h1).2
    have e2 := (hd'.det h2).2
    cases e1
    injection e2 with e2
    have := names_one fit F C (C.act S hS) (C.act S' hS') (n := visN S.name) (base_names hk (by simp [baseNames]))
      (e2 ▸ base_names hk' (by simp [baseNames]))
    rw [this]
  · intro sp x ty l hx hl ha
    rcases hx.2 _ _ hl with h | ⟨S, a, hS, e⟩
    · cases h
    refine ⟨List.mem_flatMap.2 ⟨S, C.act S hS, by rw [e]; exact mem_ends ..⟩, ?_⟩
    intro c hc
    obtain ⟨U, hU, a', b, e1, rfl⟩ := (F.kids x _ (fit.homes S (C.act S hS) a x sp e) c).1 hc
    have hUA : Act U := C.beside S U a x sp hS e hU (by simp [e1])
    have e2 : sp = b ++ U.ctx := fit.nested S (C.act S hS) U hU a x sp a' (b ++ U.ctx) e (by simp [Svc.home, e1])
    obtain ⟨d', hd'⟩ := den_server fit F C hUA (hden U hUA)
    obtain ⟨d'', hd''⟩ := den_under fit F C hUA hd' a' (x :: b) e1
    rw [e2]
    refine ⟨_, _, hd'', ?_⟩
    intro hct
    have hr : U.rpc = true := by
      cases hr : U.rpc with
      | true => rfl
      | false =>
        have hk := front_of fit F C hUA hr
        obtain ⟨d0, hd0, hs0⟩ := hden U hUA hk
        have := service_ctr (den_top fit F C hUA hk hd0 hs0).2
        unfold Svc.servedTree at hct
        rw [if_neg (by simp [hk]), if_neg (by simp [hr]), this] at hct
        cases hct
    exact node_under fit F C hUA hr e1
  · intro sp n ty hn hl ha
    obtain ⟨S, hc, e⟩ := hn.2 _ _ hl
    subst e
    obtain ⟨hS, hu, hsite⟩ := C.called sp S hc
    refine ⟨List.mem_flatMap.2 ⟨sp, ?_, List.mem_map.2 ⟨S, C.act S hS, rfl⟩⟩, ?_⟩
    · rcases hsite with e | ⟨S', hS', _, e⟩
      · simp [e]
      · exact List.mem_cons_of_mem _ (List.mem_map.2 ⟨S', C.act S' hS', e.symm⟩)
    · obtain ⟨p, e1, e2, e3, e4⟩ := (F.services S (C.act S hS)).ptr
      refine ⟨p, e1, ?_⟩
      rw [e3, e4]
      unfold Svc.iface
      cases hr : S.rpc with
      | true =>
        obtain ⟨d1, h1⟩ := den_addr fit F C hS hr (path_called fit F C hc)
        refine ⟨d1, _, h1, rfl, ?_⟩
        intro a ea
        cases ea
        obtain ⟨d', hd'⟩ := den_server fit F C hS (hden S hS)
        obtain ⟨⟨d2, h2⟩, h3, h4⟩ := called_under fit F C hc hr hd'
        exact ⟨d2, _, h2, h3, h4⟩
      | false =>
        have e : sp = S.home := by
          rcases hu with ⟨_, e⟩ | ⟨e, _⟩
          · exact e
          · rw [hr] at e; cases e
        subst e
        have hk := front_of fit F C hS hr
        obtain ⟨d, hd, hs0⟩ := hden S hS hk
        obtain ⟨⟨d1, h1⟩, hs⟩ := den_top fit F C hS hk hd hs0
        refine ⟨d1, _, h1, service_ctr hs, ?_⟩
        intro a ea
        rw [ea] at hs
        cases hs

end

end Verif.Compile
