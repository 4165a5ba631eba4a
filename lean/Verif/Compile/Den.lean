import Verif.Compile.Model
/-
What the names of a wiring spec stand for, without regard to the order in which things are built, to what was built before, or to what is
deferred: the nodes that a compilation should find under them.
-/
namespace Verif.Compile
open Verif.Wiring (Name Ptr)

/-- Whether a namespace accepts nodes of a type, by the definition of the namespace. -/
def Env.accepts (env : Env) (sp : Space) (ty : Ty) : Bool :=
  match sp with
  | [] => true
  | x :: _ => match ty with
    | .app => false
    | .level l => match env.look x with
      | some (_, _, some (.space m)) => decide (m = l + 1)
      | _ => false

/-- Instantiating the name in the namespace hides no edge that is expected: the name leads to a node that is built in the namespace, to
a proxy, or to the container of a backend. -/
inductive InstOk (env : Env) : Space → Name → Prop where
  | alias {sp : Space} {n dn : Name} {ty : Ty} {k : Option Kind} : env.look n = some (dn, ty, k) → dn ≠ n → InstOk env sp dn →
      InstOk env sp n
  | built {sp : Space} {n : Name} {ty : Ty} {k : Option Kind} : env.look n = some (n, ty, k) → env.accepts sp ty = true → InstOk env sp n
  | proxy {sp : Space} {n : Name} {ty : Ty} {k : Kind} : env.look n = some (n, ty, some k) → env.accepts sp ty = false →
      k.quiet = true → InstOk env sp.tail n → InstOk env sp n

mutual
/-- In namespace `sp`, name `n` stands for node `t`; all names that are asked for on the way are `Legal` in the namespaces in which they
are asked for.  The number is the length of the longest way. -/
inductive Den (env : Env) (Legal : Space → Name → Prop) : Nat → Space → Name → Tree → Prop where
  /-- an alias stands for what its target stands for -/
  | alias {h : Nat} {sp : Space} {n dn : Name} {ty : Ty} {k : Kind} {t : Tree} : Legal sp n → env.look n = some (dn, ty, some k) →
      dn ≠ n → Den env Legal h sp dn t → Den env Legal (h + 1) sp n t
  /-- what the namespace does not accept is found in the parent -/
  | climb {h : Nat} {x : Name} {r : Space} {n : Name} {ty : Ty} {k : Kind} {t : Tree} : Legal (x :: r) n →
      env.look n = some (n, ty, some k) → env.accepts (x :: r) ty = false → Den env Legal h r n t → Den env Legal (h + 1) (x :: r) n t
  | built {h : Nat} {sp : Space} {n : Name} {ty : Ty} {k : Kind} {t : Tree} : Legal sp n → env.look n = some (n, ty, some k) →
      env.accepts sp ty = true → Built env Legal h sp n k t → Den env Legal (h + 1) sp n t
/-- A definition of kind `k` under name `n` gives node `t` in namespace `sp`. -/
inductive Built (env : Env) (Legal : Space → Name → Prop) : Nat → Space → Name → Kind → Tree → Prop where
  | handler {h : Nat} {sp : Space} {n svc : Name} {ctor : List Bool} {args : List Name} {ts : List Tree} : ctor.length = args.length →
      Args env Legal h sp (ctor.zip args) ts → Built env Legal h sp n (.handler svc ctor args) (.handler svc ts)
  | client {h : Nat} {sp : Space} {n next : Name} {t : Tree} : Den env Legal h sp next t → t.isCtr = false →
      Built env Legal h sp n (.client next) (.wrap n t)
  | wrap {h : Nat} {sp : Space} {n next : Name} {t : Tree} : Den env Legal h sp next t → t.isService = true →
      Built env Legal h sp n (.wrap next) (.wrap n t)
  | visibility {sp : Space} {n : Name} : Built env Legal 0 sp n .visibility (.visibility n)
  | check {h h' : Nat} {sp : Space} {n md target v : Name} {t : Tree} : Den env Legal h sp md (.visibility v) →
      Den env Legal h' sp target t → t.isCtr = false → Built env Legal (max h h') sp n (.check md target) t
  | ptr {h : Nat} {sp : Space} {n : Name} {p : Ptr} {t : Tree} : env.ptr n = some p → Den env Legal h sp p.srcHead t →
      t.isCtr = false → Built env Legal h sp n .ptr t
  | addr {sp : Space} {n : Name} : Built env Legal 0 sp n .addr (.addr n)
  | bind {sp : Space} {n : Name} : Built env Legal 0 sp n .bind (.bind n)
  | dial {sp : Space} {n : Name} : Built env Legal 0 sp n .dial (.dial n)
  | grpcClient {h h' : Nat} {sp : Space} {n next a d : Name} : Den env Legal h sp next (.addr a) →
      Den env Legal h' sp (dialName a) (.dial d) → Built env Legal (max h h') sp n (.grpcClient next) (.grpcClient n a)
  | grpcServer {h h' h'' : Nat} {sp : Space} {n next addr a b : Name} {t : Tree} : Den env Legal h sp next t → t.isService = true →
      Den env Legal h' sp addr (.addr a) → Den env Legal h'' sp (bindName a) (.bind b) →
      Built env Legal (max h (max h' h'')) sp n (.grpcServer next addr) (.grpcServer n t a)
  /-- entering a namespace -/
  | enter {h h' : Nat} {sp : Space} {n x next : Name} {ty : Ty} {l : Nat} {t : Tree} : env.look x = some (x, ty, some (.space l)) →
      env.accepts sp ty = true → Den env Legal h sp x (.space x) → InstOk env (x :: sp) next → Den env Legal h' (x :: sp) next t →
      Built env Legal (max h h') sp n (.enter x next) t
  | space {sp : Space} {n : Name} {l : Nat} : Built env Legal 0 sp n (.space l) (.space n)
  | container {h h' : Nat} {sp : Space} {n addr a b : Name} : Den env Legal h sp addr (.addr a) →
      Den env Legal h' sp (bindName a) (.bind b) → Built env Legal (max h h') sp n (.container addr) (.container n a)
/-- The arguments of a handler: a string that names nothing stands for itself. -/
inductive Args (env : Env) (Legal : Space → Name → Prop) : Nat → Space → List (Bool × Name) → List Tree → Prop where
  | nil {sp : Space} : Args env Legal 0 sp [] []
  | value {h : Nat} {sp : Space} {a : Name} {rest : List (Bool × Name)} {ts : List Tree} : env.look a = none →
      Args env Legal h sp rest ts → Args env Legal h sp ((true, a) :: rest) (.value a :: ts)
  | node {h h' : Nat} {sp : Space} {str : Bool} {a : Name} {rest : List (Bool × Name)} {t : Tree} {ts : List Tree} :
      (str = true → env.look a ≠ none) → Den env Legal h sp a t → t.isCtr = false → Args env Legal h' sp rest ts →
      Args env Legal (max h h') sp ((str, a) :: rest) (t :: ts)
end

/-- Finding what name `n` stands for in namespace `sp` leads to the server of address `a`. -/
inductive Binds (env : Env) (Legal : Space → Name → Prop) : Space → Name → Name → Prop where
  | alias {sp : Space} {n dn a : Name} {ty : Ty} {k : Option Kind} : env.look n = some (dn, ty, k) → dn ≠ n → Binds env Legal sp dn a →
      Binds env Legal sp n a
  | climb {x : Name} {r : Space} {n a : Name} {ty : Ty} {k : Option Kind} : env.look n = some (n, ty, k) →
      env.accepts (x :: r) ty = false → Binds env Legal r n a → Binds env Legal (x :: r) n a
  | enter {sp : Space} {n x next a : Name} {ty : Ty} : env.look n = some (n, ty, some (.enter x next)) → env.accepts sp ty = true →
      Binds env Legal (x :: sp) next a → Binds env Legal sp n a
  | server {h : Nat} {sp : Space} {n next addr a : Name} {ty : Ty} : env.look n = some (n, ty, some (.grpcServer next addr)) →
      env.accepts sp ty = true → Den env Legal h sp addr (.addr a) → Binds env Legal sp n a
  | container {h : Nat} {sp : Space} {n addr a : Name} {ty : Ty} : env.look n = some (n, ty, some (.container addr)) →
      env.accepts sp ty = true → Den env Legal h sp addr (.addr a) → Binds env Legal sp n a

/-- Building a node of kind `k` in namespace `sp` asks for these names, in these namespaces. -/
inductive Asks (env : Env) (Legal : Space → Name → Prop) (sp : Space) (n : Name) : Kind → Space → Name → Prop where
  | arg {svc a : Name} {ctor : List Bool} {args : List Name} {str : Bool} : (str, a) ∈ ctor.zip args →
      (str = true → env.look a ≠ none) → Asks env Legal sp n (.handler svc ctor args) sp a
  | client {next : Name} : Asks env Legal sp n (.client next) sp next
  | wrap {next : Name} : Asks env Legal sp n (.wrap next) sp next
  | metadata {md target : Name} : Asks env Legal sp n (.check md target) sp md
  | target {md target : Name} : Asks env Legal sp n (.check md target) sp target
  | ptr {p : Ptr} : env.ptr n = some p → Asks env Legal sp n .ptr sp p.srcHead
  | dialled {next : Name} : Asks env Legal sp n (.grpcClient next) sp next
  | dial {h : Nat} {next a : Name} : Den env Legal h sp next (.addr a) → Asks env Legal sp n (.grpcClient next) sp (dialName a)
  | served {next addr : Name} : Asks env Legal sp n (.grpcServer next addr) sp next
  | address {next addr : Name} : Asks env Legal sp n (.grpcServer next addr) sp addr
  | bind {h : Nat} {next addr a : Name} : Den env Legal h sp addr (.addr a) → Asks env Legal sp n (.grpcServer next addr) sp (bindName a)
  | ctrAddress {addr : Name} : Asks env Legal sp n (.container addr) sp addr
  | ctrBind {h : Nat} {addr a : Name} : Den env Legal h sp addr (.addr a) → Asks env Legal sp n (.container addr) sp (bindName a)
  | space {x next : Name} : Asks env Legal sp n (.enter x next) sp x
  | inside {x next : Name} : Asks env Legal sp n (.enter x next) (x :: sp) next

/-- Finding name `n` in namespace `sp` asks for name `n'` in namespace `sp'`. -/
inductive Sub (env : Env) (Legal : Space → Name → Prop) : Space → Name → Space → Name → Prop where
  | alias {sp : Space} {n dn : Name} {ty : Ty} {k : Option Kind} : env.look n = some (dn, ty, k) → dn ≠ n → Sub env Legal sp n sp dn
  | climb {x : Name} {r : Space} {n : Name} {ty : Ty} {k : Option Kind} : env.look n = some (n, ty, k) →
      env.accepts (x :: r) ty = false → Sub env Legal (x :: r) n r n
  | built {sp sp' : Space} {n n' : Name} {ty : Ty} {k : Kind} : env.look n = some (n, ty, some k) → env.accepts sp ty = true →
      Asks env Legal sp n k sp' n' → Sub env Legal sp n sp' n'

/-- Finding name `n` in namespace `sp` asks, in some steps, for name `n'` in namespace `sp'`. -/
inductive Reach (env : Env) (Legal : Space → Name → Prop) (sp : Space) (n : Name) : Space → Name → Prop where
  | refl : Reach env Legal sp n sp n
  | step {q q' : Space} {x x' : Name} : Reach env Legal sp n q x → Sub env Legal q x q' x' → Reach env Legal sp n q' x'

/-- Getting the name in the namespace does not get the container of a backend from outside the namespace. -/
def Plain (env : Env) (sp : Space) (n : Name) (t : Tree) : Prop :=
  t.isCtr = true → ∃ ty k, env.look n = some (n, ty, k) ∧ env.accepts sp ty = true

/-- What makes a compilation of a wiring spec succeed: everything that is asked for while building and by deferred functions stands for
something, nodes that must be unique are asked for in one namespace, and there are finitely many namespaces and uses of pointers. -/
structure Sound (env : Env) (Legal : Space → Name → Prop) (spaces : List Space) (ptrs : List (Space × Name)) : Prop where
  /-- nodes that must be unique are legal in one namespace -/
  unique : ∀ sp sp' c ty md target, env.look c = some (c, ty, some (.check md target)) → Legal sp c → Legal sp' c → sp = sp'
  /-- uniqueness checks have metadata of their own -/
  own : ∀ h h' sp sp' c c' ty ty' md md' target target' v, env.look c = some (c, ty, some (.check md target)) →
    env.look c' = some (c', ty', some (.check md' target')) → Legal sp c → Legal sp' c' → Den env Legal h sp md (.visibility v) →
    Den env Legal h' sp' md' (.visibility v) → c = c'
  children : ∀ sp x ty l, Legal sp x → env.look x = some (x, ty, some (.space l)) → env.accepts sp ty = true →
    x :: sp ∈ spaces ∧ ∀ c ∈ env.children x, ∃ h t, Den env Legal h (x :: sp) c t ∧ Plain env (x :: sp) c t
  pointer : ∀ sp n ty, Legal sp n → env.look n = some (n, ty, some .ptr) → env.accepts sp ty = true →
    (sp, n) ∈ ptrs ∧ ∃ p, env.ptr n = some p ∧ ∃ h t, Den env Legal h sp p.interfaceNode t ∧ t.isCtr = false ∧
      ∀ a, t = .addr a → ∃ h' t', Den env Legal h' sp (p.dstModifiers.headD "") t' ∧ Binds env Legal sp (p.dstModifiers.headD "") a ∧
        InstOk env sp (p.dstModifiers.headD "")

end Verif.Compile
