import Verif.Wiring.Spec
/-
Model of pointers: blueprint/pkg/coreplugins/pointer/pointer.go and visibility.go, the
part that works on the wiring spec.  (What pointers do when nodes are built is in
UniqModel.)
-/
namespace Verif.Wiring
variable {T B P : Type}

/-- blueprint/pkg/coreplugins/pointer/pointer.go:44-56 (PointerDef). -/
structure Ptr where
  name : Name
  srcModifiers : List Name
  srcHead : Name
  srcTail : Name
  interfaceNode : Name
  dstHead : Name
  dstModifiers : List Name
deriving DecidableEq, Repr

/-- What the plugin passes to the wiring spec for a definition; the contents do not
matter here. -/
structure Payload (T B P : Type) where
  nodeType : T
  build : B
  stack : P

/-- blueprint/pkg/coreplugins/pointer/visibility.go:35-74 (RequireUniqueness), for an
alias of an existing definition: the names it defines and the alias it redirects.
The two early returns with an error are `spec` unchanged. -/
def requireUniqueness (md check : Payload T B P) (spec : Spec T B P) (alias : Name) : Spec T B P :=
  match spec.getAlias alias with
  | none => spec
  | some name =>
    let spec := spec.step (.define (name ++ ".visibility") md.nodeType md.build md.stack)
    let checkName := name ++ ".uniqueness_check"
    let spec := spec.step (.define checkName check.nodeType check.build check.stack)
    spec.step (.alias alias checkName)

/-- blueprint/pkg/coreplugins/pointer/pointer.go:101-141 (CreatePointer).  `uniq` holds
the payloads of the uniqueness check, or nothing if uniqueness is not required;
`self` is the pointer's own definition and `prop` the value of its "ptr" property. -/
def createPointer (uniq : Option (Payload T B P × Payload T B P)) (self : Payload T B P) (prop : P)
    (spec : Spec T B P) (name dst : Name) : Spec T B P × Ptr :=
  let (spec, dst) :=
    match uniq with
    | none => (spec, dst)
    | some (md, check) =>
      let dstName := name ++ ".dst"
      (requireUniqueness md check (spec.step (.alias dstName dst)) dstName, dstName)
  let ptr : Ptr :=
    { name := name, srcModifiers := [], srcHead := name ++ ".src", srcTail := name ++ ".src"
      interfaceNode := dst, dstHead := dst, dstModifiers := [dst] }
  let spec := spec.step (.alias ptr.srcTail ptr.interfaceNode)
  let spec := spec.step (.define name self.nodeType self.build self.stack)
  (spec.step (.setProperty name "ptr" prop), ptr)

/-- blueprint/pkg/coreplugins/pointer/pointer.go:160-167 (AddSrcModifier). -/
def Ptr.addSrc (ptr : Ptr) (spec : Spec T B P) (modifier : Name) : Spec T B P × Ptr × Name :=
  let spec := spec.step (.alias ptr.srcTail modifier)
  let tail := modifier ++ ".ptr.src.next"
  let spec := spec.step (.alias tail ptr.interfaceNode)
  (spec, { ptr with srcTail := tail, srcModifiers := ptr.srcModifiers ++ [modifier] }, tail)

/-- blueprint/pkg/coreplugins/pointer/pointer.go:179-192 (AddDstModifier). -/
def Ptr.addDst (ptr : Ptr) (spec : Spec T B P) (modifier : Name) (isInterface : Bool) :
    Spec T B P × Ptr × Name :=
  let nextDst := ptr.dstHead
  let ptr := { ptr with dstHead := modifier }
  let (spec, ptr) :=
    if isInterface then
      (spec.step (.alias ptr.srcTail modifier), { ptr with interfaceNode := modifier })
    else (spec, ptr)
  (spec, { ptr with dstModifiers := modifier :: ptr.dstModifiers }, nextDst)

/-- blueprint/pkg/coreplugins/pointer/pointer.go:201-216 (AddAddrModifier) for an
address whose metadata has been found (`pointsTo` is its destination). -/
def Ptr.addAddr (ptr : Ptr) (spec : Spec T B P) (addr pointsTo : Name) :
    Spec T B P × Ptr × Name :=
  let (spec, ptr, nextDst) := ptr.addDst spec pointsTo true
  let ptr := { ptr with interfaceNode := addr }
  (spec.step (.alias ptr.srcTail addr), ptr, nextDst)

/-- What plugins do with a pointer, interleaved with other calls on the wiring spec. -/
inductive POp (T B P : Type) where
  | src (modifier : Name)
  | dst (modifier : Name) (isInterface : Bool)
  | addr (addr pointsTo : Name)
  | other (op : Op T B P)

/-- One call; the last component is what the plugin gets to know: the name of the
next modifier. -/
def ptrStep (s : Spec T B P × Ptr) : POp T B P → (Spec T B P × Ptr) × Option Name
  | .src m => let (spec, ptr, next) := s.2.addSrc s.1 m; ((spec, ptr), some next)
  | .dst m i => let (spec, ptr, next) := s.2.addDst s.1 m i; ((spec, ptr), some next)
  | .addr a p => let (spec, ptr, next) := s.2.addAddr s.1 a p; ((spec, ptr), some next)
  | .other op => ((s.1.step op, s.2), none)

def ptrRun (s : Spec T B P × Ptr) (ops : List (POp T B P)) : Spec T B P × Ptr :=
  ops.foldl (fun s o => (ptrStep s o).1) s

end Verif.Wiring
