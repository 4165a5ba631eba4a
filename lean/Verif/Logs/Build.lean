import Verif.Logs.Props
import Verif.Wiring.NsProps
/-
C133 at compile time: a process's metric collector and logger are its first nodes.
-/
namespace Verif.Logs
open Verif.Wiring (Name)
open Verif.Wiring.Ns (St Prog Lookup Node Event Res exec History ParOk exec_preserves)

/-- The state after the collector and the logger were built in the new namespace. -/
def afterProcess (st : St Ty) (ns : Nat) (p m l : Name) (cs : List Name) : St Ty :=
  let proc : Node := ⟨st.nextUid, p, false⟩
  let s1 := ({ st with nextUid := st.nextUid + 1 }.addChild ns p acceptsGolang).defer true (getChildren st.size proc cs)
  let s2 := { s1 with nextUid := s1.nextUid + 1 }.afterBuild st.size m false ⟨s1.nextUid, m, false⟩
  { s2 with nextUid := s2.nextUid + 1 }.afterBuild st.size l false ⟨s2.nextUid, l, false⟩

theorem ex_new {look : Lookup Ty} {f : Nat} {s : St Ty} {x : Name} {b : Bool} {k : Node → Prog Ty} :
    exec look (f + 1) s (.prog (.new x b k)) = exec look f { s with nextUid := s.nextUid + 1 } (.prog (k ⟨s.nextUid, x, b⟩)) := by
  rw [exec]

theorem ex_ret {look : Lookup Ty} {f : Nat} {s : St Ty} {n : Node} : exec look (f + 1) s (.prog (.ret n)) = some (s, .ok n) := by
  rw [exec]

theorem ex_derive {look : Lookup Ty} {f : Nat} {s : St Ty} {ns : Nat} {x : Name} {acc : Ty → Bool} {k : Option Nat → Prog Ty}
    (h : ns < s.size) (hc : s.children ns x = none) :
    exec look (f + 1) s (.prog (.derive ns x acc k)) = exec look f (s.addChild ns x acc) (.prog (k (some s.size))) := by
  rw [exec]
  simp only [h, if_true, hc]

theorem ex_defer {look : Lookup Ty} {f : Nat} {s : St Ty} {ns : Nat} {b : Bool} {p k : Prog Ty} :
    exec look (f + 1) s (.prog (.defer ns b p k)) = exec look f (s.defer b p) (.prog k) := by
  rw [exec]

theorem ex_get {look : Lookup Ty} {f : Nat} {s s' : St Ty} {ns : Nat} {b : Bool} {x : Name} {n : Node} {k : Option Node → Prog Ty}
    (h : ns < s.size) (he : exec look f s (.get ns b x) = some (s', .ok n)) :
    exec look (f + 1) s (.prog (.get ns b x k)) = exec look f s' (.prog (k (some n))) := by
  rw [exec]
  simp only [h, if_true, he]

theorem exec_plain {look : Lookup Ty} {n : Name} {s : St Ty} {c : Nat} {f : Nat}
    (hn : look n = some (n, ⟨.golang, false, some (plainFn n)⟩)) (ha : s.accepts c = acceptsGolang) (hs : s.seen c n = none) :
    exec look (f + 1 + 1 + 1) s (.get c true n) =
      some ({ s with nextUid := s.nextUid + 1 }.afterBuild c n false ⟨s.nextUid, n, false⟩, .ok ⟨s.nextUid, n, false⟩) := by
  rw [exec]
  simp only [hs, hn, ne_eq, not_true_eq_false, if_false, ha, acceptsGolang, if_true]
  rw [plainFn, ex_new, ex_ret]

theorem afterBuild_size (s : St Ty) (c : Nat) (x : Name) (n : Node) : (s.afterBuild c x false n).size = s.size := by
  unfold St.afterBuild
  simp only [Bool.not_false, if_true]
  split <;> rfl

theorem exec_process {look : Lookup Ty} {p m l : Name} {cs : List Name} {ns : Nat} {st : St Ty} {f : Nat}
    (hm : look m = some (m, ⟨.golang, false, some (plainFn m)⟩)) (hl : look l = some (l, ⟨.golang, false, some (plainFn l)⟩)) (hne : m ≠ l)
    (hns : ns < st.size) (hc : st.children ns p = none) :
    exec look (f + 1 + 1 + 1 + 1 + 1 + 1 + 1 + 1) st (.prog (processFn p m l cs ns)) = some (afterProcess st ns p m l cs, .ok ⟨st.nextUid, p, false⟩) := by
  rw [processFn, ex_new, ex_derive (s := { st with nextUid := st.nextUid + 1 }) hns hc]
  simp only
  rw [ex_defer]
  have h1 : st.size < ((({ st with nextUid := st.nextUid + 1 }).addChild ns p acceptsGolang).defer true
      (getChildren st.size ⟨st.nextUid, p, false⟩ cs)).size := by simp [St.addChild, St.defer]
  rw [ex_get h1 (exec_plain hm (by simp [St.addChild, St.defer]) (by simp [St.addChild, St.defer]))]
  simp only
  rw [ex_get (by rw [afterBuild_size]; exact h1) (exec_plain hl ?_ ?_)]
  · simp only
    rw [ex_ret]
    rfl
  · unfold St.afterBuild
    simp only [Bool.not_false, if_true]
    split <;> simp [St.addChild, St.defer, St.setSeen, St.setAdded, St.emit]
  · unfold St.afterBuild
    simp only [Bool.not_false, if_true]
    split <;> simp [St.addChild, St.defer, St.setSeen, St.setAdded, St.emit, Ne.symm hne]

theorem nodes_afterProcess (st : St Ty) (ns : Nat) (p m l : Name) (cs : List Name) (hne : m ≠ l) :
    nodesOf st.size (afterProcess st ns p m l cs).log = nodesOf st.size st.log ++ [m, l] := by
  simp [afterProcess, St.afterBuild, St.addChild, St.defer, St.setSeen, St.setAdded, St.emit, nodesOf, Ne.symm hne]

/-- Handlers are only told of nodes of namespaces that exist. -/
def Told (s : St Ty) : Prop := ∀ c x n, Event.addNode c x n ∈ s.log → c < s.size

theorem told_exec (look : Lookup Ty) {fuel : Nat} {s s' : St Ty} {t : Wiring.Ns.Task Ty} {r : Res} (h : Told s) (hpo : ParOk s)
    (ht : ∀ ns e name, t = .get ns e name → ns < s.size) (he : exec look fuel s t = some (s', r)) :
    Told s' ∧ ParOk s' ∧ s.log <+: s'.log := by
  have a := exec_preserves look (fun s' => Told s' ∧ s.log <+: s'.log)
    (fun _ _ _ _ h => h)
    (fun t ns x e d n _ hns h => by
      unfold St.afterParent
      simp only [St.setSeen]
      split
      · exact h
      · split
        · refine ⟨fun c x' n' hm => ?_, h.2.trans (List.prefix_append _ _)⟩
          simp only [St.setAdded, St.emit, List.mem_append, List.mem_singleton, reduceCtorEq, or_false] at hm
          exact h.1 c x' n' hm
        · refine ⟨fun c x' n' hm => ?_, h.2.trans (List.prefix_append _ _)⟩
          simp only [St.setAdded, St.emit, List.mem_append, List.mem_singleton, reduceCtorEq, or_false] at hm
          exact h.1 c x' n' hm)
    (fun t ns x d n _ hns _ h => by
      unfold St.afterBuild
      simp only [St.setSeen]
      split
      · refine ⟨fun c x' n' hm => ?_, h.2.trans (List.prefix_append _ _)⟩
        simp only [St.emit, List.mem_append, List.mem_singleton, reduceCtorEq, or_false] at hm
        exact h.1 c x' n' hm
      · split
        · refine ⟨fun c x' n' hm => ?_, (h.2.trans (List.prefix_append _ _)).trans (List.prefix_append _ _)⟩
          simp only [St.setAdded, St.emit, List.mem_append, List.mem_singleton, reduceCtorEq, or_false] at hm
          rcases hm with hm | hm
          · exact h.1 c x' n' hm
          · cases hm; exact hns
        · refine ⟨fun c x' n' hm => ?_, (h.2.trans (List.prefix_append _ _)).trans (List.prefix_append _ _)⟩
          simp only [St.setAdded, St.emit, List.mem_append, List.mem_singleton, reduceCtorEq, or_false] at hm
          exact h.1 c x' n' hm)
    (fun s ns x acc _ h => ⟨fun c x' n' hm => Nat.lt_succ_of_lt (h.1 c x' n' hm), h.2⟩)
    (fun _ h => h) (fun _ _ _ h => h)
    (fun s f p h => by
      refine ⟨fun c x' n' hm => ?_, h.2.trans (List.prefix_append _ _)⟩
      simp only [St.defer, List.mem_append, List.mem_singleton, reduceCtorEq, or_false] at hm
      exact h.1 c x' n' hm)
    fuel s t s' r ⟨h, List.prefix_refl _⟩ hpo ht he
  exact ⟨a.1.1, a.2.1, a.1.2⟩

theorem told_history (look : Lookup Ty) {s s' : St Ty} (hh : History look s s') (h : Told s) (hpo : ParOk s) :
    Told s' ∧ ParOk s' ∧ s.log <+: s'.log := by
  induction hh with
  | refl s => exact ⟨h, hpo, List.prefix_refl _⟩
  | step fuel t r ht he _ ih =>
    obtain ⟨a, b, c⟩ := told_exec look h hpo ht he
    obtain ⟨a', b', c'⟩ := ih a b
    exact ⟨a', b', c.trans c'⟩

theorem told_nodes {s : St Ty} (h : Told s) {c : Nat} (hc : s.size ≤ c) : nodesOf c s.log = [] := by
  unfold nodesOf
  rw [List.filterMap_eq_nil_iff]
  intro e he
  cases e with
  | addNode m x n =>
    have := h m x n he
    simp only
    rw [if_neg (by omega)]
  | _ => rfl

theorem nodesOf_prefix {c : Nat} {a b : List Event} (h : a <+: b) : nodesOf c a <+: nodesOf c b := by
  obtain ⟨t, rfl⟩ := h
  unfold nodesOf
  rw [List.filterMap_append]
  exact List.prefix_append _ _

theorem look_plain {s : Wiring.Spec Ty Fn Val} {n : Name} {other : Nat → Nat → Prog Ty} (h : Plain s n) :
    lookOf s other n = some (n, ⟨.golang, false, some (plainFn n)⟩) := by
  obtain ⟨d, hd, ht, hb⟩ := h
  unfold lookOf
  rw [hd, Option.map_some, ht, hb]
  rfl

/-- **C133**, at compile time: when a process is built, in whatever state a compilation is, its namespace's first nodes are the chosen metric
collector and the chosen logger, if these are nodes without arguments (as all are except X-Trace's logger), whatever is built in the process
later. -/
theorem C133_first {calls : List Call} {p m l : Name} {other : Nat → Nat → Prog Ty} (h : ∀ o, .other o ∈ calls → LeavesAlone p o)
    (cm : lastChoice (Call.collector p) calls = some m) (cl : lastChoice (Call.logger p) calls = some l)
    (hm : Plain (specOf calls) m) (hl : Plain (specOf calls) l) (hne : m ≠ l)
    {st : St Ty} (hr : History (lookOf (specOf calls) other) St.init st) {ns : Nat} (hns : ns < st.size) (hc : st.children ns p = none) :
    ∃ fuel st' node, exec (lookOf (specOf calls) other) fuel st (.prog (fnOf (specOf calls) other (.process p) ns)) = some (st', .ok node) ∧
      ∀ st'', History (lookOf (specOf calls) other) st' st'' → ∃ rest, nodesOf st.size st''.log = m :: l :: rest := by
  have em : stringProp (specOf calls) p "metricCollector" = m := by
    unfold stringProp
    rw [((C133_chosen h m).2).2 cm]
  have el : stringProp (specOf calls) p "logger" = l := by
    unfold stringProp
    rw [((C133_chosen h l).1).2 cl]
  have t0 : Told (St.init : St Ty) := by intro c x n hmem; simp [St.init] at hmem
  obtain ⟨t1, p1, -⟩ := told_history _ hr t0 Verif.Wiring.Ns.ParOk.init
  have he := exec_process (p := p) (cs := childrenOf (specOf calls) p) (f := 0) (look_plain (other := other) hm) (look_plain (other := other) hl)
    hne hns hc
  refine ⟨8, afterProcess st ns p m l (childrenOf (specOf calls) p), ⟨st.nextUid, p, false⟩, ?_, ?_⟩
  · simp only [fnOf, em, el]
    exact he
  · intro st'' hh
    obtain ⟨t2, p2, -⟩ := told_exec _ t1 p1 (by simp) he
    obtain ⟨-, -, hp⟩ := told_history _ hh t2 p2
    have := nodesOf_prefix (c := st.size) hp
    rw [nodes_afterProcess _ _ _ _ _ _ hne, told_nodes t1 (Nat.le_refl _)] at this
    obtain ⟨rest, e⟩ := this
    exact ⟨rest, e.symm⟩

end Verif.Logs
