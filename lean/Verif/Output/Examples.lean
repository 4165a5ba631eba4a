import Verif.Output.Props
/-
C135: names for which parts of an application get into each other's way, documented paths that are not there, and concrete
cases.
-/
namespace Verif.Output
open Verif.Strings (cleanName)

/-- A generator that writes `main.go` with a text, and keeps what else it finds, as `os.WriteFile` and `os.MkdirAll` do. -/
def writes (text : Str) : Gen := fun fs => some fun p => if p = ["main.go".toList] then some text else fs p

/-- A node of another kind than those with registered builders. -/
def part (name : String) (g : Gen) : Part := ⟨name.toList, .other, some g⟩

/-- **C135** is false for names that are equal after cleaning (ioutil.go lines 50-56): whatever the generators do, the second
node's generator is started in the directory with the files of the first, and what it leaves there is all that remains. -/
theorem C135_same_name_refuted {a b : Part} {g h : Gen} {x y : FS} (ha : a.gen = some g) (hb : b.gen = some h)
    (hne : cleanName a.name ≠ []) (he : cleanName a.name = cleanName b.name) (hx : g FS.empty = some x)
    (hy : h (fun q => if q = [] then none else x q) = some y) :
    ∃ fs, buildAll false [] [a, b] = some fs ∧ ∀ q, q ≠ [] → fs (cleanName a.name :: q) = y q := by
  have e1 : enter (placeOf a.name) FS.empty g = some ((Place.dir (cleanName a.name)).put FS.empty x) := by
    rw [placeOf_dir hne, enter_empty (fs := FS.empty) g (fun _ _ => rfl), hx]
    rfl
  have e2 : enter (placeOf b.name) ((Place.dir (cleanName a.name)).put FS.empty x) h =
      some ((Place.dir (cleanName a.name)).put ((Place.dir (cleanName a.name)).put FS.empty x) y) := by
    have hv : (Place.dir (cleanName a.name)).view ((Place.dir (cleanName a.name)).put FS.empty x) =
        fun q => if q = [] then none else x q := by
      funext q
      simp only [Place.view, Place.put, Place.has, Place.file, List.head?_cons, beq_self_eq_true, if_true, List.tail_cons]
      by_cases hq : q = []
      · simp [hq]
      · simp [hq]
    have hf : (Place.dir (cleanName a.name)).put FS.empty x [cleanName a.name] = none := by
      simp [Place.put, Place.has, Place.file]
    rw [placeOf_dir (he ▸ hne), ← he]
    simp only [enter, hf, Option.isSome_none, Bool.false_eq_true, if_false, hv, hy, Option.map_some]
  refine ⟨(Place.dir (cleanName a.name)).put ((Place.dir (cleanName a.name)).put FS.empty x) y, ?_, ?_⟩
  · simp only [buildAll, Bool.false_eq_true, if_false, runBuilders, runParts, ha, hb, e1, e2, List.isEmpty_nil, if_true]
  · intro q hq
    simp [Place.put, Place.has, Place.file, hq]

/-- **C135** is false for the nodes `web.app` and `web_app`: compilation succeeds, but the output is not the expected one: there is
one directory, with the `main.go` of the second node. -/
theorem C135_lost_files_refuted : ∃ fs,
    buildAll false [] [part "web.app" (writes "first".toList), part "web_app" (writes "second".toList)] = some fs ∧
    fs ["web_app".toList, "main.go".toList] = some "second".toList ∧
    ¬ Expected [] [part "web.app" (writes "first".toList), part "web_app" (writes "second".toList)] fs := by
  have h1 : cleanName "web.app".toList = "web_app".toList := by decide +kernel
  have h2 : cleanName "web_app".toList = "web_app".toList := by decide +kernel
  obtain ⟨fs, hb, hf⟩ := C135_same_name_refuted (a := part "web.app" (writes "first".toList))
    (b := part "web_app" (writes "second".toList)) rfl rfl (by decide +kernel) (h1.trans h2.symm) rfl rfl
  have hv := hf ["main.go".toList] (by simp)
  rw [show cleanName (part "web.app" (writes "first".toList)).name = "web_app".toList from h1] at hv
  refine ⟨fs, hb, hv, fun he => ?_⟩
  obtain ⟨g, out, hg, ho, h⟩ := he.part (part "web.app" (writes "first".toList)) List.mem_cons_self
  obtain rfl := Option.some.inj hg
  obtain rfl := Option.some.inj ho
  have := h ["main.go".toList] (by simp)
  rw [show cleanName (part "web.app" (writes "first".toList)).name = "web_app".toList from h1, hv] at this
  revert this
  decide +kernel

/-- A builder that writes `main.go` with a text, as above. -/
def builds (k : Kind) (pl : Place) (text : Str) : Builder := ⟨k, pl, fun _ => writes text⟩

/-- **C135** is false for a node called `docker`, or with another name that becomes `docker` (dockercompose/defaults.go line 26): it
writes into the directory of all containers, whatever the two generate. -/
theorem C135_docker_refuted {n c : Part} {b : Builder} {g : Gen} {x y : FS} (hb : b.kind = .container)
    (hpl : b.place = .dir "docker".toList) (hn : n.kind = .other) (hc : c.kind = .container) (hg : n.gen = some g)
    (he : cleanName n.name = "docker".toList) (hx : b.build [c] FS.empty = some x)
    (hy : g (fun q => if q = [] then none else x q) = some y) :
    ∃ fs, buildAll false [b] [n, c] = some fs ∧ ∀ q, q ≠ [] → fs ("docker".toList :: q) = y q := by
  have hk : (n.kind == b.kind) = false := by rw [hb, hn]; rfl
  have hk' : (c.kind == b.kind) = true := by rw [hb, hc]; rfl
  have f1 : [n, c].filter (fun p => p.kind == b.kind) = [c] := by simp [List.filter_cons, hk, hk']
  have f2 : [n, c].filter (fun p => p.kind != b.kind) = [n] := by simp [List.filter_cons, bne, hk, hk']
  have hpn : placeOf n.name = .dir "docker".toList := by
    rw [placeOf_dir (by rw [he]; decide), he]
  have e1 : enter (.dir "docker".toList) FS.empty (b.build [c]) = some ((Place.dir "docker".toList).put FS.empty x) := by
    rw [enter_empty (fs := FS.empty) _ (fun _ _ => rfl), hx]
    rfl
  have hv : (Place.dir "docker".toList).view ((Place.dir "docker".toList).put FS.empty x) =
      fun q => if q = [] then none else x q := by
    funext q
    simp only [Place.view, Place.put, Place.has, Place.file, List.head?_cons, beq_self_eq_true, if_true, List.tail_cons]
    by_cases hq : q = []
    · simp [hq]
    · simp [hq]
  have hf : (Place.dir "docker".toList).put FS.empty x ["docker".toList] = none := by
    simp [Place.put, Place.has, Place.file]
  have e2 : enter (.dir "docker".toList) ((Place.dir "docker".toList).put FS.empty x) g =
      some ((Place.dir "docker".toList).put ((Place.dir "docker".toList).put FS.empty x) y) := by
    simp only [enter, hf, Option.isSome_none, Bool.false_eq_true, if_false, hv, hy, Option.map_some]
  refine ⟨(Place.dir "docker".toList).put ((Place.dir "docker".toList).put FS.empty x) y, ?_, ?_⟩
  · simp only [buildAll, Bool.false_eq_true, if_false, runBuilders, runBuilder, f1, f2, List.isEmpty_cons, hpl, e1,
      Option.map_some, runParts, hg, hpn, e2, List.isEmpty_nil, if_true]
  · intro q hq
    simp [Place.put, Place.has, Place.file, hq]

/-- **C135** is false for a node whose name has only digits: it has no directory, and its files are in the output directory
itself, whatever it generates. -/
theorem C135_digits_refuted {n : Part} {g : Gen} (hg : n.gen = some g) (he : cleanName n.name = []) :
    buildAll false [] [n] = g FS.empty := by
  have hp : placeOf n.name = .root := if_pos he
  have hput : ∀ x : FS, Place.root.put FS.empty x = x := fun x => by
    funext p
    simp [Place.put, Place.has, Place.file]
  simp only [buildAll, Bool.false_eq_true, if_false, runBuilders, runParts, hg, hp, enter, Place.view]
  cases g FS.empty with
  | none => rfl
  | some x => simp [hput]

/-- The documentation of workload generators (workload/wiring.go lines 33-37) and of the sock shop (README.md line 178) says that
the executable of the generator `wlgen` is `build/wlgen/wlgen_proc`, or `build/wlgen/wlgen`.  **C135** is false for both: whatever
is compiled, there is never a file of these names; `wlgen_proc` is a directory. -/
theorem C135_documented_refuted {order : List Builder} {parts : List Part} (hr : Registered order)
    (hd : DistinctNames order parts) {fs : FS} (hb : buildAll false order parts = some fs) {w : Part}
    (hw : w ∈ own order parts) (hn : w.name = "wlgen".toList) {proc : Gen} {goBuild : FS → Option Str}
    (hg : w.gen = some (workload w.name proc goBuild)) :
    fs ["wlgen".toList, "wlgen_proc".toList] = none ∧ fs ["wlgen".toList, "wlgen".toList] = none ∧
    ∃ bin, fs ["wlgen".toList, "wlgen_proc".toList, "wlgen_proc".toList, "wlgen_proc".toList] = some bin := by
  obtain ⟨out, bin, -, -, h⟩ := C135_workload_partial hr hd hb hw hg
  have h1 : cleanName "wlgen".toList = "wlgen".toList := by decide +kernel
  have h2 : cleanName ("wlgen".toList ++ ".proc".toList) = "wlgen_proc".toList := by decide +kernel
  rw [hn] at h
  simp only [h1, h2] at h
  refine ⟨?_, ?_, bin, ?_⟩
  · rw [h _ (by simp)]
    simp
  · rw [h _ (by simp)]
    simp
  · rw [h _ (by simp)]
    simp

/-! ### A concrete case: containers, processes, addresses, tests and a workload generator -/

/-- The builders of the command line tool (cmdbuilder.go lines 207-209), and port assignment. -/
def exOrder : List Builder :=
  [⟨.config, .dots, fun _ fs => some fun p => if p = [".env".toList] then some "A=1".toList else fs p⟩,
    ⟨.metadata, .nowhere, fun _ fs => some fs⟩,
    builds .golang (.dir "golang".toList) "g".toList, builds .process (.dir "linux".toList) "l".toList,
    builds .container (.dir "docker".toList) "d".toList]

def exProc : Gen := fun fs => some fun p => if p = ["go.work".toList] then some "use".toList else fs p

/-- As in the sock shop: a container, an address, the tests and a workload generator. -/
def exParts : List Part :=
  [⟨"cart_ctr".toList, .container, none⟩, ⟨"cart.grpc.dial_addr".toList, .config, none⟩,
    part "gotests" (writes "t".toList), part "wlgen" (workload "wlgen".toList exProc fun fs => fs ["go.work".toList])]

theorem exRegistered : Registered exOrder := by
  refine ⟨by decide +kernel, ?_, ?_, ?_, ?_, ?_, ?_⟩ <;>
  (intro b hb; simp only [exOrder, builds, List.mem_cons, List.not_mem_nil, or_false] at hb
   rcases hb with rfl | rfl | rfl | rfl | rfl <;> simp)

theorem exDistinct : DistinctNames exOrder exParts := by
  have ho : own exOrder exParts =
      [part "gotests" (writes "t".toList), part "wlgen" (workload "wlgen".toList exProc fun fs => fs ["go.work".toList])] := rfl
  refine ⟨?_, ?_, ?_⟩
  · rw [ho]
    decide +kernel
  · rw [ho]
    intro p hp
    simp only [List.mem_cons, List.not_mem_nil, or_false] at hp
    rcases hp with rfl | rfl <;> decide +kernel
  · rw [ho]
    intro p hp
    simp only [List.mem_cons, List.not_mem_nil, or_false] at hp
    rcases hp with rfl | rfl <;> decide +kernel

/-- Compilation succeeds, and these are some of the files. -/
example : ∃ fs, buildAll false exOrder exParts = some fs ∧ Expected exOrder exParts fs ∧
    fs ["wlgen".toList, "wlgen_proc".toList, "wlgen_proc".toList, "wlgen_proc".toList] = some "use".toList ∧
    fs ["wlgen".toList, "wlgen_proc".toList, "go.work".toList] = some "use".toList ∧
    fs ["gotests".toList, "main.go".toList] = some "t".toList ∧ fs ["docker".toList, "main.go".toList] = some "d".toList ∧
    fs ["linux".toList, "main.go".toList] = none ∧ fs [".env".toList] = some "A=1".toList := by
  have h : (buildAll false exOrder exParts).isSome = true := by decide +kernel
  obtain ⟨fs, hfs⟩ := Option.isSome_iff_exists.1 h
  have key : (buildAll false exOrder exParts).map (fun fs =>
      [fs ["wlgen".toList, "wlgen_proc".toList, "wlgen_proc".toList, "wlgen_proc".toList],
        fs ["wlgen".toList, "wlgen_proc".toList, "go.work".toList], fs ["gotests".toList, "main.go".toList],
        fs ["docker".toList, "main.go".toList], fs ["linux".toList, "main.go".toList], fs [".env".toList]]) =
      some [some "use".toList, some "use".toList, some "t".toList, some "d".toList, none, some "A=1".toList] := by
    decide +kernel
  simp only [hfs, Option.map_some, Option.some.injEq, List.cons.injEq, and_true] at key
  exact ⟨fs, hfs, (C135_output_partial exRegistered exDistinct fs).1 hfs, key⟩

end Verif.Output
