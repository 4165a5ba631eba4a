/-
Concrete methods for C97.
-/
import Verif.Scope.Props
namespace Verif.Scope

/-- `AddItem(ctx, customerID string, item Item) (Item, error)` of sock shop's cart. -/
def addItem : Sig where
  args := [⟨"customerID", "string"⟩, ⟨"item", "cart.Item"⟩]
  argIds := [["string"], ["cart"]]
  rets := ["cart.Item"]
  retIds := [["cart"]]
  service := "CartService"
  name := "AddItem"

/-- A method `Page(ctx, user string, x T) ([]string, error)`. -/
def page (x : Name) (ty : String) : Sig where
  args := [⟨"user", "string"⟩, ⟨x, ty⟩]
  argIds := [["string"], [ty]]
  rets := ["[]string"]
  retIds := [["string"]]
  service := "Pages"
  name := "Page"

def everyPlugin : List Plugin :=
  [.retries, .retriesFixedDelay, .retriesBackoff, .retriesRateLimit, .retriesTokenBucket, .timeouts, .circuitBreaker, .latency, .delay,
    .probabilistic, .loadBalancer, .clientPool, .healthChecker, .otServer, .otClient false, .otClient true, .xtServer, .xtClient,
    .gvServer, .gvClient, .grpcClient, .grpcServer, .thriftClient "cartservice", .thriftServer "cartservice", .httpClient, .httpServer]

/-- Sock shop's method meets what `C97_names_ok` asks for, with every plugin. -/
theorem addItem_ok : ∀ p ∈ everyPlugin, (∀ x ∈ foreign addItem p, x ∉ variables addItem p) ∧
    (addItem.args.map (·.name)).Nodup ∧
    ∀ a ∈ addItem.args, a.name ≠ "_" ∧ a.name ≠ "" ∧
      a.name ∉ reserved addItem p ++ doubtful addItem p ++ retVars addItem.rets.length := by decide +kernel

example : ∀ p ∈ everyPlugin, Faithful p addItem := fun p hp =>
  C97_names_ok p addItem (addItem_ok p hp).1 (addItem_ok p hp).2

-- Each argument is handed on once, or at each place where the wrapped method is called.
example : everyPlugin.map (fun p => compile (method addItem p) addItem.args) = everyPlugin.map fun p =>
    match p with
    | .retriesRateLimit | .retriesTokenBucket => some [(0, .arg 0), (1, .arg 1), (0, .arg 0), (1, .arg 1)]
    | .httpServer => some [(1, .arg 1), (0, .arg 0), (1, .arg 1)]
    | _ => some [(0, .arg 0), (1, .arg 1)] := by decide +kernel

-- `i int`: the retriers hand on the number of the attempt; `i string` does not compile; a timeout does not mind.
example : compile (method (page "i" "int") .retries) (page "i" "int").args = some [(0, .arg 0), (1, .own)] := by decide +kernel
example : compile (method (page "i" "string") .retries) (page "i" "string").args = none := by decide +kernel
example : compile (method (page "i" "int") .retriesBackoff) (page "i" "int").args = none := by decide +kernel
example : compile (method (page "i" "int") .retriesRateLimit) (page "i" "int").args =
    some [(0, .arg 0), (1, .arg 1), (0, .arg 0), (1, .own)] := by decide +kernel
example : compile (method (page "waitErr" "error") .retriesRateLimit) (page "waitErr" "error").args =
    some [(0, .arg 0), (1, .arg 1), (0, .arg 0), (1, .own)] := by decide +kernel
example : compile (method (page "tb" "float64") .retriesTokenBucket) (page "tb" "float64").args =
    some [(0, .arg 0), (1, .arg 1), (0, .arg 0), (1, .own)] := by decide +kernel
example : compile (method (page "i" "int") .timeouts) (page "i" "int").args = some [(0, .arg 0), (1, .arg 1)] := by decide +kernel

-- The case in `C97_attempt_number_refuted`.
example : ∃ l, compile (method (page "i" "int") .retries) (page "i" "int").args = some l ∧ (1, Bind.own) ∈ l ∧ (1, Bind.arg 1) ∉ l :=
  C97_attempt_number_refuted (page "i" "int") 1 rfl (by decide) (by decide +kernel) .retries (.inl rfl)

-- Names from a template, and a name that clashes with a package.
example : everyPlugin.map (fun p => compile (method (page "err" "string") p) (page "err" "string").args == none) =
    everyPlugin.map fun p => match p with
      | .delay | .healthChecker => false
      | _ => true := by decide +kernel
example : (compile (method (page "err" "error") .grpcServer) (page "err" "error").args) = some [(0, .arg 0), (1, .arg 1)] := by decide +kernel
example : everyPlugin.map (fun p => compile (method (page "time" "int64") p) (page "time" "int64").args == none) =
    everyPlugin.map fun p => match p with
      | .retriesFixedDelay | .retriesBackoff | .timeouts | .latency | .delay => true
      | _ => false := by decide +kernel

-- Two arguments and no names: `Add(ctx context.Context, _ int, _ int)`, or an interface whose methods name none.
example : ¬ Faithful .retries { page "_" "int" with args := [⟨"_", "int"⟩, ⟨"_", "int"⟩] } := fun h =>
  absurd (C97_names_break .retries _ h).1 (by decide)
example : ¬ Faithful .retries (page "" "int") := fun h =>
  absurd ((C97_names_break .retries _ h).2 ⟨"", "int"⟩ (by simp [page])).2.1 (by decide)

end Verif.Scope
