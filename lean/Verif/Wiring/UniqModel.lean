import Verif.Wiring.NsModel
/-
Model of the uniqueness check and of the lazy instantiation of the server side of a
pointer: blueprint/pkg/coreplugins/pointer/visibility.go and pointer.go.
-/
namespace Verif.Wiring.Ns
variable {T : Type}

/-- blueprint/pkg/coreplugins/pointer/visibility.go:49-55: the build function of the
visibility metadata `mdName`.  The field of the new node is `md.node`. -/
def visibilityBuild (mdName : Name) : NsId → Prog T := fun _ =>
  .new mdName true fun md => .ret md

/-- blueprint/pkg/coreplugins/pointer/visibility.go:58-71: the build function of the
uniqueness check of `name`.  `md.namespace`, which is only used in the error message,
is left out.  A failing Get leaves `md.node` as it was. -/
def uniquenessBuild (mdName name : Name) : NsId → Prog T := fun ns =>
  .get ns true mdName fun
    | none => .fail
    | some md => .load md.uid fun
      | some _ => .fail
      | none => .get ns true name fun
        | none => .fail
        | some node => .store md.uid node (.ret node)

/-- blueprint/pkg/coreplugins/pointer/pointer.go:221-256 (InstantiateDst) as the
deferred function of blueprint/pkg/coreplugins/pointer/pointer.go:129-131.  `isAddr`
tells whether a node is an address; the field of an address node is its
destination.  A deferred function only returns an error, so any node serves as the
result.  At 246-248 the error of Instantiate is dropped, because the variable that
is returned still holds the result of the earlier, successful Get. -/
def instantiateDst (isAddr : Node → Bool) (interfaceNode dstHead : Name) (ns : NsId) : Prog T :=
  .get ns true interfaceNode fun
    | none => .fail
    | some node =>
      if isAddr node then
        .load node.uid fun
          | some _ => .ret node
          | none => .get ns false dstHead fun
            | none => .ret node
            | some _ => .load node.uid fun
              | some _ => .ret node
              | none => .fail
      else .ret node

/-- blueprint/pkg/coreplugins/pointer/pointer.go:126-136: the build function of a
pointer. -/
def pointerBuild (isAddr : Node → Bool) (srcHead interfaceNode dstHead : Name) :
    NsId → Prog T := fun ns =>
  .defer ns false (instantiateDst isAddr interfaceNode dstHead ns) <|
  .get ns true srcHead fun
    | none => .fail
    | some node => .ret node

end Verif.Wiring.Ns
