import Verif.GoTests.Spec
import Verif.GoCode.Props
import Verif.Registry.Props
/-
C111: tests that were converted by the gotests plugin run against the services of the compiled application.
-/
namespace Verif.GoTests
open Verif.GoCode (Name Ty Iface contains SameSignature)

/-! ### Finding registries -/

/-- C111: the registries found are exactly the variables declared with a single call of `registry.NewServiceRegistry[T]`, with the type
that `T` stands for in that file. -/
theorem C111_found (ts : Types) (pkgs : List Pkg) (r : Reg) :
    r ∈ findRegistries ts pkgs ↔ ∃ p ∈ pkgs, ∃ f ∈ p.files, ∃ v ∈ f.vars, ∃ t args,
      v.values = [.call (.index (.sel (.ident registryIdent) newRegistryIdent) t) args] ∧
      r = ⟨p, v.name, ts.resolve f t, ts.iface (ts.resolve f t)⟩ := by
  have key : ∀ vs t, isTestRegistryCall vs = some t ↔
      ∃ args, vs = [.call (.index (.sel (.ident registryIdent) newRegistryIdent) t) args] := by
    intro vs t
    unfold isTestRegistryCall
    constructor
    · intro h
      split at h
      · split at h
        · next hx =>
          obtain ⟨rfl, rfl⟩ := hx
          cases h
          exact ⟨_, rfl⟩
        · cases h
      · cases h
    · rintro ⟨args, rfl⟩
      simp
  simp only [findRegistries, registriesOf, List.mem_flatMap, List.mem_filterMap, Option.map_eq_some_iff]
  constructor
  · rintro ⟨p, hp, f, hf, v, hv, t, ht, rfl⟩
    obtain ⟨args, e⟩ := (key _ _).1 ht
    exact ⟨p, hp, f, hf, v, hv, t, args, e, rfl⟩
  · rintro ⟨p, hp, f, hf, v, hv, t, args, e, rfl⟩
    exact ⟨p, hp, f, hf, v, hv, t, (key _ _).2 ⟨args, e⟩, rfl⟩

/-- C111 refuted: a registry is not found if its package was imported under another name. -/
theorem C111_alias_refuted (ts : Types) (p : Pkg) (x : Name) (hx : x ≠ registryIdent) (t : Expr) (args : List Expr)
    (h : ∀ f ∈ p.files, ∀ v ∈ f.vars, v.values = [.call (.index (.sel (.ident x) newRegistryIdent) t) args]) :
    findRegistries ts [p] = [] := by
  rw [List.eq_nil_iff_forall_not_mem]
  intro r hr
  obtain ⟨q, hq, f, hf, v, hv, t', args', e, -⟩ := (C111_found ts [p] r).1 hr
  rw [List.mem_singleton] at hq
  subst hq
  rw [h f hf v hv] at e
  simp only [List.cons.injEq, Expr.call.injEq, Expr.index.injEq, Expr.sel.injEq, Expr.ident.injEq] at e
  exact hx e.1.1.1.1

/-! ### Which clients are registered -/

theorem mem_getRegistries (regs : List Reg) (s : Service) (r : Reg) : r ∈ getRegistries regs s ↔ r ∈ regs ∧ Fits s r := by
  simp only [getRegistries, List.mem_filter, Bool.or_eq_true, Fits, GoCode.C29_equals_iff_same]
  refine and_congr_right fun _ => or_congr_right ?_
  cases hi : r.iface with
  | none => simp [contains]
  | some i => simp [GoCode.C30_contains_iff]

def client (s : Service) (r : Reg) : Client := ⟨s.name, r.var, r.type, s.node⟩

/-- The two loops as one. -/
def addAll (state : GoGen.Workspace × Builders) : List (Service × Reg) → Option (GoGen.Workspace × Builders)
  | [] => some state
  | (s, r) :: l => (addRegistration state s r).bind fun state => addAll state l

theorem addAll_append (state : GoGen.Workspace × Builders) (l l' : List (Service × Reg)) :
    addAll state (l ++ l') = (addAll state l).bind fun state => addAll state l' := by
  induction l generalizing state with
  | nil => rfl
  | cons x l ih =>
    simp only [List.cons_append, addAll]
    cases addRegistration state x.1 x.2 with
    | none => rfl
    | some st => simpa using ih st

theorem addRegistrations_eq (state : GoGen.Workspace × Builders) (s : Service) (rs : List Reg) :
    addRegistrations state s rs = addAll state (rs.map fun r => (s, r)) := by
  induction rs generalizing state with
  | nil => rfl
  | cons r rs ih =>
    simp only [addRegistrations, List.map_cons, addAll]
    cases addRegistration state s r with
    | none => rfl
    | some st => simpa using ih st

def pairs (regs : List Reg) (svcs : List Service) : List (Service × Reg) :=
  svcs.flatMap fun s => (getRegistries regs s).map fun r => (s, r)

theorem generate_eq (state : GoGen.Workspace × Builders) (regs : List Reg) (svcs : List Service) :
    generate state regs svcs = addAll state (pairs regs svcs) := by
  induction svcs generalizing state with
  | nil => rfl
  | cons s ss ih =>
    simp only [generate, pairs, List.flatMap_cons, addAll_append, addRegistrations_eq]
    cases addAll state ((getRegistries regs s).map fun r => (s, r)) with
    | none => rfl
    | some st => simpa [pairs] using ih st

theorem lookup_addClient (bs : Builders) (p q : Name) (c : Client) :
    (addClient bs q c).lookup p = (bs.lookup p).map fun l => if p = q then l ++ [c] else l := by
  induction bs with
  | nil => rfl
  | cons b bs ih =>
    obtain ⟨k, l⟩ := b
    simp only [addClient, List.map_cons] at ih ⊢
    by_cases hp : p = k
    · subst hp
      by_cases hq : p = q <;> simp [List.lookup_cons, hq]
    · by_cases hq : k = q
      · rw [if_pos hq]; simp only [List.lookup_cons, beq_eq_false_iff_ne.2 hp]; exact ih
      · rw [if_neg hq]; simp only [List.lookup_cons, beq_eq_false_iff_ne.2 hp]; exact ih

/-- The clients that a list of registrations has for a package. -/
def clientsIn (p : Name) (l : List (Service × Reg)) : List Client :=
  (l.filter fun x => x.2.pkg.path = p).map fun x => client x.1 x.2

theorem lookup_addAll (l : List (Service × Reg)) (state state' : GoGen.Workspace × Builders) (h : addAll state l = some state') (p : Name) :
    state'.2.lookup p = match state.2.lookup p with
      | some cs => some (cs ++ clientsIn p l)
      | none => if clientsIn p l = [] then none else some (clientsIn p l) := by
  induction l generalizing state with
  | nil =>
    cases h
    simp only [clientsIn, List.filter_nil, List.map_nil, List.append_nil, if_true]
    cases state'.2.lookup p <;> rfl
  | cons x l ih =>
    obtain ⟨s, r⟩ := x
    simp only [addAll] at h
    cases hr : addRegistration state s r with
    | none => rw [hr] at h; cases h
    | some st =>
      rw [hr] at h
      have ih := ih st h
      have hst : st.2.lookup p = if r.pkg.path = p then some (((state.2.lookup p).getD []) ++ [client s r]) else state.2.lookup p := by
        unfold addRegistration at hr
        split at hr
        · next hs =>
          cases hr
          simp only [lookup_addClient]
          by_cases hp : r.pkg.path = p
          · subst hp
            obtain ⟨cs, hc⟩ := Option.isSome_iff_exists.1 hs
            simp [hc, client]
          · rw [if_neg hp]
            cases state.2.lookup p <;> simp [Ne.symm hp]
        · next hs =>
          have hs : state.2.lookup r.pkg.path = none := Option.not_isSome_iff_eq_none.1 hs
          split at hr
          · cases hr
          · cases hr
            simp only [lookup_addClient, List.lookup_append]
            by_cases hp : r.pkg.path = p
            · subst hp
              simp [hs, client]
            · rw [if_neg hp]
              simp only [List.lookup_cons, beq_eq_false_iff_ne.2 (Ne.symm hp), List.lookup_nil]
              cases state.2.lookup p <;> simp [Ne.symm hp]
      rw [ih, hst]
      by_cases hp : r.pkg.path = p
      · have hc : clientsIn p ((s, r) :: l) = client s r :: clientsIn p l := by simp [clientsIn, hp]
        rw [if_pos hp, hc]
        cases state.2.lookup p <;> simp
      · have hc : clientsIn p ((s, r) :: l) = clientsIn p l := by simp [clientsIn, hp]
        rw [if_neg hp, hc]

/-- The clients of the generated file of a package. -/
def clientsOf (bs : Builders) (p : Pkg) : List Client := (bs.lookup p.path).getD []

theorem clientsOf_generate {ws : GoGen.Workspace} {regs : List Reg} {svcs : List Service} {ws' : GoGen.Workspace} {bs : Builders}
    (h : generate (ws, []) regs svcs = some (ws', bs)) (p : Pkg) :
    clientsOf bs p = clientsIn p.path (pairs regs svcs) ∧ (bs.lookup p.path = none ↔ clientsIn p.path (pairs regs svcs) = []) := by
  rw [generate_eq] at h
  have := lookup_addAll _ _ _ h p.path
  simp only [List.lookup_nil] at this
  unfold clientsOf
  rw [this]
  split <;> simp_all

open Classical in
/-- C111: the generated file of a package registers in each registry a client for each service to test that fits the registry, under the
service's name, in the order of the services, and nothing else. -/
theorem C111_clients (ws ws' : GoGen.Workspace) (regs : List Reg) (svcs : List Service) (bs : Builders)
    (h : generate (ws, []) regs svcs = some (ws', bs)) (hu : (regs.map fun r => (r.pkg.path, r.var)).Nodup) (r : Reg) (hr : r ∈ regs) :
    (clientsOf bs r.pkg).filter (fun c => c.var = r.var) = (svcs.filter fun s => Fits s r).map fun s => ⟨s.name, r.var, r.type, s.node⟩ := by
  rw [(clientsOf_generate h r.pkg).1]
  clear h
  have one : ∀ s, ((getRegistries regs s).filter fun x => decide (x.pkg.path = r.pkg.path) && decide (x.var = r.var)) =
      if Fits s r then [r] else [] := by
    intro s
    unfold getRegistries
    rw [List.filter_filter]
    have hfit := mem_getRegistries regs s r
    simp only [getRegistries, List.mem_filter] at hfit
    revert hfit
    generalize hP : (fun r : Reg => s.type.equals r.type || contains (some s.iface) r.iface) = P
    have hPr : ∀ r, (s.type.equals r.type || contains (some s.iface) r.iface) = P r := fun r => by rw [← hP]
    simp only [hPr]
    intro hfit
    clear hP hPr
    induction regs with
    | nil => cases hr
    | cons x regs ih =>
      simp only [List.map_cons, List.nodup_cons] at hu
      by_cases hx : x.pkg.path = r.pkg.path ∧ x.var = r.var
      · have hxr : x = r := by
          rcases List.mem_cons.1 hr with e | e
          · exact e.symm
          · exact absurd (List.mem_map.2 ⟨r, e, by rw [hx.1, hx.2]⟩) hu.1
        subst hxr
        have hnil : regs.filter (fun a => decide (a.pkg.path = x.pkg.path) && decide (a.var = x.var) && P a) = [] := by
          rw [List.filter_eq_nil_iff]
          intro a ha hc
          simp only [Bool.and_eq_true, decide_eq_true_eq] at hc
          exact hu.1 (List.mem_map.2 ⟨a, ha, by rw [hc.1.1, hc.1.2]⟩)
        rw [List.filter_cons, hnil]
        have : P x = true ↔ Fits s x := by
          have := hfit
          simp only [List.mem_cons, true_or, true_and] at this
          exact this
        by_cases hf : Fits s x
        · simp [hf, this.2 hf]
        · have : P x = false := by simpa using fun h => hf (this.1 h)
          simp [hf, this]
      · have hne : r ∈ regs := by
          rcases List.mem_cons.1 hr with e | e
          · exact absurd ⟨by rw [e], by rw [e]⟩ hx
          · exact e
        rw [List.filter_cons, if_neg (by simpa using fun h1 h2 => absurd ⟨h1, h2⟩ hx)]
        exact ih hu.2 hne (by simpa [hne] using hfit)
  unfold clientsIn pairs
  rw [List.filter_map, List.filter_filter]
  induction svcs with
  | nil => rfl
  | cons s ss ih =>
    rw [List.flatMap_cons, List.filter_append, List.map_append, ih, List.filter_map]
    have : (getRegistries regs s).filter ((fun a : Service × Reg => ((fun c : Client => decide (c.var = r.var)) ∘ fun x : Service × Reg => client x.1 x.2) a &&
        decide (a.2.pkg.path = r.pkg.path)) ∘ fun r => (s, r)) = if Fits s r then [r] else [] := by
      rw [← one s]
      apply List.filter_congr
      intro x _
      simp only [Function.comp, client]
      exact Bool.and_comm _ _
    rw [this]
    by_cases hf : Fits s r <;> simp [hf, client]

/-! ### What the tests get -/

theorem le_trans' (f g h : File) (h1 : f.le g = true) (h2 : g.le h = true) : f.le h = true := by
  simp only [File.le, decide_eq_true_eq] at *
  exact List.le_trans h1 h2

theorem le_total' (f g : File) : (f.le g || g.le f) = true := by
  simp only [File.le, Bool.or_eq_true, decide_eq_true_eq]
  exact List.le_total _ _

/-- The statements about a variable. -/
theorem opsOf_append (R : Type) (code : Build → Nat) (var : Name) (a b : List Stmt) :
    opsOf R code var (a ++ b) = opsOf R code var a ++ opsOf R code var b := List.filterMap_append

theorem opsOf_nil_of (R : Type) (code : Build → Nat) (var : Name) (a : List Stmt) (h : ∀ st ∈ a, ¬ st.about var) :
    opsOf R code var a = [] := by
  unfold opsOf
  rw [List.filterMap_eq_nil_iff]
  intro st hst
  have := h st hst
  cases st <;> simp_all [Stmt.about]

/-- The init functions of a package with a generated file: if no earlier file mentions the variable, the clients come first. -/
theorem ops_generated (R : Type) (code : Build → Nat) (bs : Builders) (p : Pkg) (var : Name) (hb : bs.lookup p.path ≠ none)
    (hf : FirstInOrder var p.files) :
    ∃ fs : List File, (∀ f ∈ fs, f ∈ p.files) ∧ opsOf R code var (initStmts (outputFiles bs p)) =
      opsOf R code var (clientsGo (clientsOf bs p)).init ++ opsOf R code var (fs.flatMap (·.init)) := by
  obtain ⟨cs, hc⟩ := Option.ne_none_iff_exists'.1 hb
  have hcs : clientsOf bs p = cs := by simp [clientsOf, hc]
  rw [hcs]
  let g := clientsGo cs
  let src := p.files.filter fun f => decide (f.name ≠ clientsFile)
  have hout : outputFiles bs p = src ++ [g] := by simp only [outputFiles, hc]; rfl
  rw [hout]
  have hplain : (src ++ [g]).filter (!·.test) = src.filter (!·.test) ++ [g] := by
    rw [List.filter_append]; rfl
  have hperm := List.mergeSort_perm (src.filter (!·.test) ++ [g]) File.le
  have hg : g ∈ (src.filter (!·.test) ++ [g]).mergeSort File.le := hperm.mem_iff.2 (by simp)
  obtain ⟨A, B, hAB⟩ := List.append_of_mem hg
  have hsort := List.pairwise_mergeSort le_trans' le_total' (src.filter (!·.test) ++ [g])
  rw [hAB] at hsort hperm
  have hperm' : (A ++ B).Perm (src.filter (!·.test)) := by
    have h1 : (g :: (A ++ B)).Perm (g :: src.filter (!·.test)) :=
      (List.perm_middle.symm.trans hperm).trans (List.perm_append_comm (l₁ := src.filter (!·.test)) (l₂ := [g]))
    exact h1.cons_inv
  have hAnil : opsOf R code var (A.flatMap (·.init)) = [] := by
    apply opsOf_nil_of
    intro st hst
    obtain ⟨f, hfA, hst⟩ := List.mem_flatMap.1 hst
    have hmem : f ∈ src.filter (!·.test) := hperm'.mem_iff.1 (by simp [hfA])
    rw [List.mem_filter, List.mem_filter] at hmem
    have hle : f.le g = true := (List.pairwise_append.1 hsort).2.2 f hfA g (by simp)
    simp only [File.le, decide_eq_true_eq] at hle
    exact hf f hmem.1.1 (by simpa using hmem.2) hle st hst
  refine ⟨B ++ ((src ++ [g]).filter (·.test)).mergeSort File.le, ?_, ?_⟩
  · intro f hfm
    rcases List.mem_append.1 hfm with h | h
    · have hmem : f ∈ src.filter (!·.test) := hperm'.mem_iff.1 (by simp [h])
      rw [List.mem_filter, List.mem_filter] at hmem
      exact hmem.1.1
    · rw [(List.mergeSort_perm _ _).mem_iff, List.filter_append, List.mem_append, List.mem_filter] at h
      rcases h with h | h
      · exact (List.mem_filter.1 h.1).1
      · simp [g, clientsGo] at h
  · unfold initStmts
    rw [hplain, hAB, List.append_assoc, List.flatMap_append, opsOf_append, hAnil, List.nil_append, List.cons_append, List.flatMap_cons,
      opsOf_append]

theorem opsOf_noGet (R : Type) (code : Build → Nat) (var : Name) (a : List Stmt) : ∀ op ∈ opsOf R code var a, op.isGet = false := by
  intro op hop
  unfold opsOf at hop
  obtain ⟨st, -, h⟩ := List.mem_filterMap.1 hop
  cases st <;> simp only at h <;> split at h <;> cases h <;> rfl

theorem opsOf_clients (R : Type) (code : Build → Nat) (var : Name) (cs : List Client) :
    opsOf R code var (clientsGo cs).init =
      (cs.filter fun c => c.var = var).map fun c => .register (String.ofList c.name) (code (.client c.node)) := by
  unfold opsOf clientsGo
  simp only [List.filterMap_map]
  induction cs with
  | nil => rfl
  | cons c cs ih =>
    by_cases h : c.var = var
    · rw [List.filterMap_cons]
      simp only [Function.comp, h, if_true] at ih ⊢
      rw [List.filter_cons, if_pos (by simpa using h), List.map_cons, ih]
    · rw [List.filterMap_cons]
      simp only [Function.comp, h, if_false] at ih ⊢
      rw [List.filter_cons, if_neg (by simpa using h), ih]

theorem lastSetDefault_none {R : Type} (l : List (Registry.Op R)) (h : ∀ n, Registry.Op.setDefault n ∉ l) :
    Registry.lastSetDefault l = none := by
  induction l with
  | nil => rfl
  | cons op l ih =>
    have ih := ih fun n hn => h n (by simp [hn])
    unfold Registry.lastSetDefault
    rw [ih]
    cases op with
    | setDefault n => exact absurd (by simp) (h n)
    | register _ _ => rfl
    | get _ => rfl

theorem lastRegistered_none {R : Type} (n : String) (l : List (Registry.Op R)) (h : ∀ b, Registry.Op.register n b ∉ l) :
    Registry.lastRegistered n l = none := by
  induction l with
  | nil => rfl
  | cons op l ih =>
    have ih := ih fun b hb => h b (by simp [hb])
    unfold Registry.lastRegistered
    rw [ih]
    cases op with
    | setDefault m => rfl
    | register m b =>
      simp only
      rw [if_neg]
      intro e
      subst e
      exact h b (by simp)
    | get _ => rfl

open Classical in
/-- C111: the first service (in Go's order of the map) that fits the registry is the one the tests talk to: when a test asks the registry
for the first time it gets the client of this service.  This needs: file names that do not put one of the package's own init functions
for this registry before the generated one, no `SetDefault` there, and no registration there under the service's own name.  Missing
from the full property: the conditions, and that the service is the one meant if several fit (`C111_two_services_refuted`,
`C111_local_name_refuted`, `C111_early_file_refuted`). -/
theorem C111_uses_client_partial (ws ws' : GoGen.Workspace) (regs : List Reg) (svcs : List Service) (bs : Builders)
    (h : generate (ws, []) regs svcs = some (ws', bs)) (hu : (regs.map fun r => (r.pkg.path, r.var)).Nodup)
    (hn : (svcs.map (·.name)).Nodup) (r : Reg) (hr : r ∈ regs) (s : Service) (rest : List Service)
    (hs : (svcs.filter fun s => Fits s r) = s :: rest) (hf : FirstInOrder r.var r.pkg.files)
    (hd : ∀ f ∈ r.pkg.files, ∀ name, Stmt.setDefault r.var name ∉ f.init)
    (ho : ∀ f ∈ r.pkg.files, ∀ b, Stmt.register r.var s.name b ∉ f.init) (code : Build → Nat) :
    firstGet code r.var (outputFiles bs r.pkg) = (.built (code (.client s.node)), some (code (.client s.node))) := by
  have hcl := C111_clients ws ws' regs svcs bs h hu r hr
  rw [hs] at hcl
  have hb : bs.lookup r.pkg.path ≠ none := by
    intro e
    have hz : clientsOf bs r.pkg = [] := by simp [clientsOf, e]
    rw [hz] at hcl
    cases hcl
  obtain ⟨fs, hfs, hops⟩ := ops_generated Nat code bs r.pkg r.var hb hf
  rw [opsOf_clients, hcl] at hops
  simp only [List.map_map, List.map_cons] at hops
  generalize hsrc : opsOf Nat code r.var (fs.flatMap (·.init)) = src at hops
  have hsd : ∀ n, Registry.Op.setDefault n ∉ src := by
    intro n hmem
    rw [← hsrc] at hmem
    obtain ⟨st, hst, e⟩ := List.mem_filterMap.1 hmem
    obtain ⟨f, hfm, hst⟩ := List.mem_flatMap.1 hst
    cases st with
    | register v m b => simp only at e; split at e <;> cases e
    | setDefault v m =>
      simp only at e
      split at e
      · next hv => exact hd f (hfs f hfm) m (hv ▸ hst)
      · cases e
  have hrg : ∀ b, Registry.Op.register (String.ofList s.name) b ∉ src := by
    intro b hmem
    rw [← hsrc] at hmem
    obtain ⟨st, hst, e⟩ := List.mem_filterMap.1 hmem
    obtain ⟨f, hfm, hst⟩ := List.mem_flatMap.1 hst
    cases st with
    | setDefault v m => simp only at e; split at e <;> cases e
    | register v m b' =>
      simp only at e
      split at e
      · next hv =>
        simp only [Option.some.injEq, Registry.Op.register.injEq, String.ofList_inj] at e
        exact ho f (hfs f hfm) b' (by rw [← hv, ← e.1]; exact hst)
      · cases e
  have hrest : ∀ b, Registry.Op.register (R := Nat) (String.ofList s.name) b ∉
      rest.map ((fun c : Client => .register (String.ofList c.name) (code (.client c.node))) ∘ fun s => ⟨s.name, r.var, r.type, s.node⟩) := by
    intro b hmem
    obtain ⟨t, ht, e⟩ := List.mem_map.1 hmem
    simp only [Function.comp, Registry.Op.register.injEq, String.ofList_inj] at e
    have hnd : ((svcs.filter fun s => Fits s r).map (·.name)).Nodup := hn.sublist ((List.filter_sublist (l := svcs)).map _)
    rw [hs, List.map_cons, List.nodup_cons] at hnd
    exact hnd.1 (List.mem_map.2 ⟨t, ht, e.1⟩)
  have hsd' : ∀ n, Registry.Op.setDefault (R := Nat) n ∉
      rest.map ((fun c : Client => .register (String.ofList c.name) (code (.client c.node))) ∘ fun s => ⟨s.name, r.var, r.type, s.node⟩) := by
    intro n hmem
    obtain ⟨t, ht, e⟩ := List.mem_map.1 hmem
    cases e
  have hget := Registry.C07_first_get_builds_default (R := Nat) (opsOf Nat code r.var (initStmts (outputFiles bs r.pkg)))
    (opsOf_noGet _ _ _ _) id
  have := (hget.2 (String.ofList s.name) (String.ofList s.name) (by rw [hops]; rfl) (by
    rw [hops, List.cons_append]
    simp only [Function.comp, Registry.afterFirstRegister]
    rw [lastSetDefault_none]
    · rfl
    · intro n hm
      rcases List.mem_append.1 hm with hm | hm
      · exact hsd' n hm
      · exact hsd n hm)).1 (code (.client s.node)) (by
    rw [hops, List.cons_append]
    unfold Registry.lastRegistered
    rw [lastRegistered_none]
    · simp
    · intro b hm
      rcases List.mem_append.1 hm with hm | hm
      · exact hrest b hm
      · exact hrg b hm)
  unfold firstGet
  rw [this]
  rfl

theorem same_name {l : List File} (hln : (l.map (·.name)).Nodup) {a b : File} (ha : a ∈ l) (hb : b ∈ l) (e : a.name = b.name) : a = b := by
  induction l with
  | nil => cases ha
  | cons x l ih =>
    simp only [List.map_cons, List.nodup_cons] at hln
    rcases List.mem_cons.1 ha with ha | ha <;> rcases List.mem_cons.1 hb with hb | hb
    · rw [ha, hb]
    · exact absurd (List.mem_map.2 ⟨b, hb, by rw [← e, ha]⟩) hln.1
    · exact absurd (List.mem_map.2 ⟨a, ha, by rw [e, hb]⟩) hln.1
    · exact ih hln.2 ha hb

/-- C111: a registry that no service to test fits works as in the source: its tests run as they did there.  (The names of the package's
files are different, and none of them is the generated file's.) -/
theorem C111_others_unchanged (ws ws' : GoGen.Workspace) (regs : List Reg) (svcs : List Service) (bs : Builders)
    (h : generate (ws, []) regs svcs = some (ws', bs)) (p : Pkg) (var : Name)
    (hno : ∀ r ∈ regs, r.pkg.path = p.path → r.var = var → ∀ s ∈ svcs, ¬ Fits s r)
    (hnames : (p.files.map (·.name)).Nodup) (hfile : clientsFile ∉ p.files.map (·.name)) (R : Type) (code : Build → Nat) :
    opsOf R code var (initStmts (outputFiles bs p)) = opsOf R code var (initStmts p.files) := by
  cases hc : bs.lookup p.path with
  | none => simp only [outputFiles, hc]
  | some cs =>
    have hcs : clientsOf bs p = cs := by simp [clientsOf, hc]
    have hnil : opsOf R code var (clientsGo cs).init = [] := by
      rw [opsOf_clients, List.map_eq_nil_iff, List.filter_eq_nil_iff]
      intro c hcm hv
      rw [← hcs, (clientsOf_generate h p).1] at hcm
      obtain ⟨⟨s, r⟩, hm, rfl⟩ := List.mem_map.1 hcm
      rw [List.mem_filter] at hm
      obtain ⟨s', hs', hm'⟩ := List.mem_flatMap.1 hm.1
      obtain ⟨r', hr', e⟩ := List.mem_map.1 hm'
      cases e
      rw [mem_getRegistries] at hr'
      exact hno r hr'.1 (by simpa using hm.2) (of_decide_eq_true hv) s hs' hr'.2
    have hsrc : p.files.filter (fun f => decide (f.name ≠ clientsFile)) = p.files := by
      rw [List.filter_eq_self]
      intro f hf
      simpa using fun e => hfile (List.mem_map.2 ⟨f, hf, e⟩)
    simp only [outputFiles, hc, hsrc]
    have hplain : (p.files ++ [clientsGo cs]).filter (!·.test) = p.files.filter (!·.test) ++ [clientsGo cs] := by
      rw [List.filter_append]; rfl
    have htest : (p.files ++ [clientsGo cs]).filter (·.test) = p.files.filter (·.test) := by
      rw [List.filter_append]; simp [clientsGo]
    unfold initStmts
    rw [hplain, htest, List.flatMap_append, List.flatMap_append, opsOf_append, opsOf_append]
    congr 1
    generalize hl : p.files.filter (!·.test) = l
    have hln : (l.map (·.name)).Nodup := by rw [← hl]; exact hnames.sublist (List.filter_sublist.map _)
    have hperm := List.mergeSort_perm (l ++ [clientsGo cs]) File.le
    have hg : clientsGo cs ∈ (l ++ [clientsGo cs]).mergeSort File.le := hperm.mem_iff.2 (by simp)
    obtain ⟨A, B, hAB⟩ := List.append_of_mem hg
    have hsort := List.pairwise_mergeSort le_trans' le_total' (l ++ [clientsGo cs])
    rw [hAB] at hsort hperm
    have hperm' : (A ++ B).Perm l :=
      ((List.perm_middle.symm.trans hperm).trans (List.perm_append_comm (l₁ := l) (l₂ := [clientsGo cs]))).cons_inv
    have hsort' : (A ++ B).Pairwise fun a b => a.le b = true :=
      hsort.sublist (List.Sublist.append (List.Sublist.refl A) (List.sublist_cons_self _ _))
    have : A ++ B = l.mergeSort File.le := by
      refine List.Perm.eq_of_pairwise ?_ hsort' (List.pairwise_mergeSort le_trans' le_total' l)
        (hperm'.trans (List.mergeSort_perm l File.le).symm)
      intro a b ha hb h1 h2
      simp only [File.le, decide_eq_true_eq] at h1 h2
      have ha : a ∈ l := hperm'.mem_iff.1 ha
      have hb : b ∈ l := (List.mergeSort_perm l File.le).mem_iff.1 hb
      have e := List.le_antisymm h1 h2
      exact same_name hln ha hb e
    rw [hAB, ← this]
    simp only [List.flatMap_append, List.flatMap_cons, opsOf_append, hnil, List.nil_append]

end Verif.GoTests
