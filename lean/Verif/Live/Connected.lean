import Verif.Live.Ports
import Verif.Live.Flags
/-
C113: the processes of a deployed application are connected.
-/
namespace Verif.Live
open Verif.Wiring (Name)
open Verif.Compile
open Verif.Strings (cleanName envVar funcName)
open Verif.Deploy.Compose (Workspace)

theorem mem_procDecls {s : St} {sp : Space} {d : Deploy.Run.Decl} :
    d ∈ procDecls s sp ↔ ∃ x, .space x ∈ s.nodes sp ∧ d = procDecl s sp x := by
  unfold procDecls
  rw [List.mem_filterMap]
  constructor
  · rintro ⟨t, ht, e⟩
    cases t <;> simp at e
    exact ⟨_, ht, e.symm⟩
  · rintro ⟨x, hx, rfl⟩
    exact ⟨_, hx, rfl⟩

theorem procDecls_names (s : St) (sp : Space) : (procDecls s sp).map (·.name) = (ctrs s sp).map String.toList := by
  unfold procDecls ctrs
  induction s.nodes sp with
  | nil => rfl
  | cons t l ih =>
    cases t <;> simp only [List.filterMap_cons, ih, List.map_cons]
    rfl

theorem toList_nodup {l : List Name} (h : l.Nodup) : (l.map String.toList).Nodup := by
  rw [List.nodup_iff_pairwise_ne, List.pairwise_map]
  exact h.imp fun hne e => hne (String.toList_inj.1 e)

theorem funcName_no_brace (x : List Char) : '{' ∉ funcName x := by
  intro h
  unfold funcName at h
  obtain ⟨c, hc, e⟩ := List.mem_map.1 h
  have hc' : c ∈ Strings.lowers ++ Strings.uppers ++ Strings.digits ++ ['_', ' '] := by
    rcases Strings.C23_identifier_or_space x c hc with (h | h) | h
    · simp only [Strings.alnum, decide_eq_true_eq] at h
      simp only [List.mem_append]
      rcases h with h | h | h
      · exact .inl (.inl (.inl h))
      · exact .inl (.inl (.inr h))
      · exact .inl (.inr h)
    · simp [h]
    · simp [h]
  exact (by decide +kernel : ∀ c ∈ Strings.lowers ++ Strings.uppers ++ Strings.digits ++ ['_', ' '], Strings.lower c ≠ '{') c hc' e

theorem hasBody_of {a f b t : List Char} (ha : '{' ∉ a) (hf : '{' ∉ f) (hb : '{' ∉ b) :
    Deploy.Run.HasBody (a ++ f ++ b ++ '{' :: t ++ ['}']) t := by
  refine ⟨a ++ f ++ b, [], rfl, ?_, by simp⟩
  simp [ha, hf, hb]

theorem runFunc_body (x : Name) (args : List Name) : Deploy.Run.HasBody (runFunc x args) (runBody x args) := by
  unfold runFunc
  exact hasBody_of (by decide +kernel) (funcName_no_brace _) (by decide +kernel)

theorem hasBody_unique {f t u : List Char} (h : Deploy.Run.HasBody f t) (h' : Deploy.Run.HasBody f u) : t = u := by
  obtain ⟨a, b, rfl, ha, hb⟩ := h
  obtain ⟨a', b', e, ha', hb'⟩ := h'
  have split : ∀ (a a' : List Char), '{' ∉ a → '{' ∉ a' → ∀ t t', a ++ '{' :: t = a' ++ '{' :: t' → t = t' := by
    intro a
    induction a with
    | nil =>
      intro a' _ h t t' e
      cases a' with
      | nil => simpa using e
      | cons c a' => simp at e; exact absurd (List.mem_cons.2 (.inl e.1)) h
    | cons c a ih =>
      intro a' h h' t t' e
      cases a' with
      | nil => simp at e; exact absurd (by simp [e.1]) h
      | cons c' a' =>
        simp at e h h'
        exact ih a' h.2 h'.2 t t' e.2
  have e1 := split a a' ha ha' (t ++ '}' :: b) (u ++ '}' :: b') (by simpa using e)
  have split' : ∀ (b b' : List Char), '}' ∉ b → '}' ∉ b' → ∀ t u, t ++ '}' :: b = u ++ '}' :: b' → t = u := by
    intro b b' hb hb' t
    induction t with
    | nil =>
      intro u e
      cases u with
      | nil => rfl
      | cons c u =>
        simp at e
        exact absurd (by rw [e.2]; simp) hb
    | cons c t ih =>
      intro u e
      cases u with
      | nil =>
        simp at e
        exact absurd (by rw [← e.2]; simp) hb'
      | cons c' u =>
        simp at e
        rw [e.1, ih u e.2]
  exact split' b b' hb hb' t u e1

theorem clean_no_newline (x : List Char) : '\n' ∉ cleanName x := by
  intro h
  have := Strings.C23_identifier_or_space x _ h
  revert this
  unfold Strings.IdentChar
  decide +kernel

theorem line_inj : ∀ {a b t u : List Char}, '\n' ∉ a → '\n' ∉ b → a ++ '\n' :: t = b ++ '\n' :: u → a = b
  | [], [], _, _, _, _, _ => rfl
  | [], c :: b, _, _, _, hb, e => by simp at e hb; exact absurd e.1 hb.1
  | c :: a, [], _, _, ha, _, e => by simp at e ha; exact absurd e.1.symm ha.1
  | c :: a, d :: b, _, _, ha, hb, e => by
    simp at e ha hb
    rw [e.1, line_inj ha.2 hb.2 e.2]

theorem first_line {k a b t u : List Char} (h : k ++ a ++ '\n' :: t = k ++ b ++ '\n' :: u) (ha : '\n' ∉ a) (hb : '\n' ∉ b) : a = b := by
  rw [List.append_assoc, List.append_assoc] at h
  exact line_inj ha hb (List.append_cancel_left h)

theorem runBody_line (x : Name) (args : List Name) : ∃ t, runBody x args = "\n\tcd ".toList ++ cleanName x.toList ++ '\n' :: t := by
  unfold runBody
  generalize "\n\tcd ".toList = k
  have : "\n    ./".toList = '\n' :: "    ./".toList := by decide +kernel
  rw [this]
  simp only [List.append_assoc, List.cons_append]
  exact ⟨_, rfl⟩

theorem runBody_inj {x y : Name} {args args' : List Name} (h : runBody x args = runBody y args') :
    cleanName x.toList = cleanName y.toList := by
  obtain ⟨t, ht⟩ := runBody_line x args
  obtain ⟨u, hu⟩ := runBody_line y args'
  rw [ht, hu] at h
  exact first_line h (clean_no_newline _) (clean_no_newline _)

theorem append_ne {a b : List Char} (h : b ≠ []) : a ++ b ≠ [] := by simp [h]

theorem runBody_ne (x : Name) (args : List Name) : runBody x args ≠ [] := by
  unfold runBody
  exact append_ne (by decide +kernel)

section
variable {A : App} {rank : Name → Nat} {nodes : List Name} {rest : Space} {image : Name → Image} {H : Svc → Tree} {s : St}

theorem Built.space_outer (B : Built A rank nodes rest image H s) {c x : Name} (h : .space x ∈ s.nodes (c :: rest)) :
    Outer A x ∧ '.' ∉ x.toList := by
  obtain ⟨S, hS, _, e⟩ := (B.processes c x).1 h
  have := B.fit.homes S (active_mem hS) [] x _ e
  exact ⟨.inl ⟨_, this⟩, B.fit.dotless _ _ this⟩

/-- The names that the processes of a container use. -/
theorem Built.used (B : Built A rank nodes rest image H s) {c : Name} {n : List Char} (h : Deploy.Run.Used (procDecls s (c :: rest)) n) :
    ∃ x : Name, n = x.toList ∧ Outer A x := by
  rcases h with ⟨d, hd, rfl⟩ | ⟨d, hd, hn⟩
  · obtain ⟨x, hx, rfl⟩ := mem_procDecls.1 hd
    exact ⟨x, rfl, (B.space_outer hx).1⟩
  · obtain ⟨x, hx, rfl⟩ := mem_procDecls.1 hd
    obtain ⟨t, ht, rfl⟩ := List.mem_map.1 hn
    exact ⟨t.name, rfl, B.edge_outer (B.up ht)⟩

theorem Built.wellFormed (B : Built A rank nodes rest image H s) (c : Name) : Deploy.Run.WellFormed (procDecls s (c :: rest)) := by
  refine ⟨?_, ?_, ?_⟩
  · rw [procDecls_names]
    exact toList_nodup (containers_nodup (B.nodes_nodup _))
  · intro n m hn hm e
    obtain ⟨x, rfl, hx⟩ := B.used hn
    obtain ⟨y, rfl, hy⟩ := B.used hm
    rw [B.dep.vars x y hx hy e]
  · intro d hd
    obtain ⟨x, hx, rfl⟩ := mem_procDecls.1 hd
    exact ⟨_, runBody_ne _ _, runFunc_body _ _⟩

/-- There are start commands that work. -/
theorem succeed (s : St) (rest : Space) (c : Name) : ∃ beh, Deploy.Run.Succeed (procDecls s (c :: rest)) beh := by
  classical
  refine ⟨fun text sh => (0, fun x => if ∃ d ∈ procDecls s (c :: rest), Deploy.Run.HasBody d.runfunc text ∧ x = envVar d.name then some []
    else sh.env x, sh.cwd), ?_⟩
  intro d hd text ht sh
  refine ⟨rfl, ?_, ?_⟩
  · simp only
    rw [if_pos ⟨d, hd, ht, rfl⟩]
    nofun
  · intro x hx
    simp only
    rw [if_neg]
    rintro ⟨d', hd', ht', rfl⟩
    obtain ⟨y, hy, rfl⟩ := mem_procDecls.1 hd
    obtain ⟨z, hz, rfl⟩ := mem_procDecls.1 hd'
    have e1 := hasBody_unique ht (runFunc_body y _)
    have e2 := hasBody_unique ht' (runFunc_body z _)
    rw [e1] at e2
    have := runBody_inj e2
    refine hx ?_
    show envVar z.toList = envVar y.toList
    rw [(Strings.C23_env_var _).1, (Strings.C23_env_var _).1, this]

/-- What processes get from outside are not processes. -/
theorem Built.dep_not_proc (B : Built A rank nodes rest image H s) {c : Name} {d : Deploy.Run.Decl} (hd : d ∈ procDecls s (c :: rest))
    {n : List Char} (hn : n ∈ d.deps) : ¬ Deploy.Run.IsProc (procDecls s (c :: rest)) n := by
  obtain ⟨x, hx, rfl⟩ := mem_procDecls.1 hd
  obtain ⟨t, ht, rfl⟩ := List.mem_map.1 hn
  rintro ⟨d', hd', e⟩
  obtain ⟨y, hy, rfl⟩ := mem_procDecls.1 hd'
  have h1 := (B.space_outer hy).2
  exact h1 ((show y.toList = t.name.toList from e) ▸ B.edge_dot (B.up ht))

theorem digits_text (p : Nat) : String.ofList (Nat.toDigits 10 p) = toString p := rfl

theorem listen_text (port : Svc → Nat) (S : Svc) :
    String.ofList ("0.0.0.0:".toList ++ Nat.toDigits 10 (port S)) = listenAddr port S := by
  unfold listenAddr
  rw [String.ofList_append, digits_text, String.ofList_toList]

theorem dials_text (port : Svc → Nat) (U : Svc) :
    String.ofList (cleanName (container U).toList ++ ':' :: Nat.toDigits 10 (port U)) = dialAddr port U := by
  unfold dialAddr
  rw [show cleanName (container U).toList ++ ':' :: Nat.toDigits 10 (port U) =
    cleanName (container U).toList ++ ":".toList ++ Nat.toDigits 10 (port U) by simp]
  rw [String.ofList_append, String.ofList_append, digits_text, String.ofList_toList]

/-- What a process of the container is told about an address. -/
theorem Composed.value {file : List Char → Option Deploy.Compose.Inst} {port : Svc → Nat} (K : Composed A nodes rest image s file port)
    (B : Built A rank nodes rest image H s) {c : Name} {i : Deploy.Compose.Inst} (hi : file (cleanName c.toList) = some i)
    (hc : .space c ∈ s.nodes rest) (img host : List Char → Option (List Char)) {t : Tree} (ht : t ∈ s.edges (c :: rest)) :
    (∃ S, A.Active nodes S ∧ S.rpc = true ∧ t = .bind (bindName S.addrN) ∧
      containerEnv img host i (envVar t.name.toList) = some (listenAddr port S).toList) ∨
    ∃ U, A.Active nodes U ∧ U.rpc = true ∧ t = .dial (dialName U.addrN) ∧
      containerEnv img host i (envVar t.name.toList) = some (dialAddr port U).toList := by
  obtain ⟨j, hj, h1, h2, _⟩ := K.inst c (mem_insts.2 (.inl hc))
  rw [B.gets_space hc] at h1 h2
  rw [hi] at hj
  cases hj
  rcases B.container_edges ht with ⟨S, hS, hr, hk, _, rfl⟩ | ⟨U, hU, hr, rfl⟩
  · obtain ⟨S', hS', hr', e, -, h⟩ := h1 _ ht
    have := bind_inj B.fit (active_mem hS) (active_mem hS') hr hr' e
    subst this
    have h := h hk
    refine .inl ⟨S, hS, hr, rfl, ?_⟩
    have : containerEnv img host i (envVar (bindName S.addrN).toList) =
        some ("0.0.0.0:".toList ++ Nat.toDigits 10 (port S)) := by
      unfold containerEnv
      rw [h]
      rfl
    rw [← listen_text, String.toList_ofList]
    exact this
  · obtain ⟨U', hU', hr', e, h⟩ := h2 _ ht
    have : U = U' := dial_inj B.fit (active_mem hU) (active_mem hU') hr hr' e
    subst this
    refine .inr ⟨U, hU, hr, rfl, ?_⟩
    simp only [containerEnv, Tree.name, h, envText]
    rw [← dials_text, String.toList_ofList]

theorem listen_ne (port : Svc → Nat) (S : Svc) : listenAddr port S ≠ "" := by
  intro h
  rw [← listen_text] at h
  have := congrArg (fun s => s.toList.length) h
  simp at this

theorem dials_ne (port : Svc → Nat) (S : Svc) : dialAddr port S ≠ "" := by
  intro h
  rw [← dials_text] at h
  have := congrArg (fun s => s.toList.length) h
  simp at this

/-- A process whose variables are right serves. -/
theorem Built.serving (B : Built A rank nodes rest image H s) {port : Svc → Nat} {p c : Name} {S : Svc} (hS : A.Active nodes S)
    (hk : S.back = false) (hh : S.home = p :: c :: rest) {w : RtNs.World}
    (hw : ∀ t ∈ s.edges (p :: c :: rest), (∃ S, A.Active nodes S ∧ S.rpc = true ∧ t = .bind (bindName S.addrN) ∧
        w.flag t.name = listenAddr port S) ∨
      ∃ U, A.Active nodes U ∧ U.rpc = true ∧ t = .dial (dialName U.addrN) ∧ w.flag t.name = dialAddr port U)
    (runnable : Name → Bool) :
    ∃ r, (∃ fuel, Proc.start (isClient A) runnable ⟨s.nodes (p :: c :: rest), s.edges (p :: c :: rest)⟩ w fuel = some (.running r)) ∧
      (∀ fuel x, Proc.start (isClient A) runnable ⟨s.nodes (p :: c :: rest), s.edges (p :: c :: rest)⟩ w fuel = some x → x = .running r) ∧
      Serving A nodes port (p :: c :: rest) r.log := by
  have hc : Proc.Closed ⟨s.nodes (p :: c :: rest), s.edges (p :: c :: rest)⟩ := closed_of_whole B.fit B.req B.hH B.hn B.he B.hd hS hk hh
  have hgiven : ∀ t ∈ s.edges (p :: c :: rest), given w t.name = w.flag t.name ∧ w.flag t.name ≠ "" := by
    intro t ht
    have hne : w.flag t.name ≠ "" := by
      rcases hw t ht with ⟨S, _, _, _, h⟩ | ⟨U, _, _, _, h⟩
      · rw [h]; exact listen_ne _ _
      · rw [h]; exact dials_ne _ _
    exact ⟨by unfold given; rw [if_pos hne], hne⟩
  obtain ⟨r, h1, h2, up⟩ := C113_starts hc (isClient A) runnable w (fun e he => by rw [(hgiven e he).1]; exact (hgiven e he).2)
  have hbind : ∀ S, A.Active nodes S → S.rpc = true → S.home = p :: c :: rest → given w (bindName S.addrN) = listenAddr port S := by
    intro S hS hr hh
    have ht : Tree.bind (bindName S.addrN) ∈ s.edges (p :: c :: rest) := (B.he _ _).2 (.bind (a := []) hS hr hh)
    have hg := (hgiven _ ht).1
    rcases hw _ ht with ⟨S', hS', hr', e, h⟩ | ⟨U, _, _, e, _⟩
    · injection e with e
      have := bind_inj B.fit (active_mem hS) (active_mem hS') hr hr' e
      subst this
      exact hg.trans h
    · cases e
  have hdial : ∀ U, A.Calls nodes (p :: c :: rest) U → U.rpc = true → given w (dialName U.addrN) = dialAddr port U := by
    intro U hU hr
    have ht : Tree.dial (dialName U.addrN) ∈ s.edges (p :: c :: rest) := (B.he _ _).2 (.dial (a := []) hU hr)
    have hg := (hgiven _ ht).1
    rcases hw _ ht with ⟨S, _, _, e, _⟩ | ⟨U', hU', hr', e, h⟩
    · cases e
    · injection e with e
      have : U = U' := dial_inj B.fit hU.1 (active_mem hU') hr hr' e
      subst this
      exact hg.trans h
  refine ⟨r, h1, h2, ⟨?_, ?_⟩⟩
  · intro S hS hh
    have hk : S.back = false := by
      cases h : S.back with
      | false => rfl
      | true => rw [B.dep.backends S (active_mem hS) h] at hh; exact absurd (congrArg List.length hh) (by simp; omega)
    have hnode : H S ∈ s.nodes (p :: c :: rest) := (B.hn _ _).2 (hh ▸ .handler hS hk)
    have hserv := isService B.fit B.req B.hH hdial (rank S.name + 1) S (by omega) hS hk hh
    have hHS := B.hH S hS hk
    have hcons : Constructed (isClient A) (H S) := by rw [hHS]; trivial
    have hname : (H S).name = S.name := by rw [hHS]; rfl
    obtain ⟨args, ho⟩ := obj_made (client := isClient A) (val := given w) hc hnode hcons
    rw [hname] at ho
    rw [ho] at hserv
    refine ⟨args, hserv, (up.calls _ _).2 ⟨_, hnode, hcons, hname, ho⟩, hname ▸ up.once _ hnode hcons, ?_⟩
    intro hr
    have hserver : S.servedTree (H S) ∈ s.nodes (p :: c :: rest) := (B.hn _ _).2 (hh ▸ .server hS hr)
    have e : S.servedTree (H S) = .grpcServer S.serverN (wrapOut (servers S.name S.wraps) (H S)) S.addrN := by
      unfold Svc.servedTree; rw [if_pos hr]; simp [hk]
    rw [e] at hserver
    refine ⟨(up.calls _ _).2 ⟨_, hserver, trivial, rfl, ?_⟩, up.once _ hserver trivial⟩
    simp only [obj]
    rw [hbind S hS hr hh, obj_wrapOut _ _ fun x hx => wrapper_not_client B.fit (active_mem hS) (.inr hx), ho]
  · intro U hU hr
    have hnode : Tree.grpcClient U.rpcClientN U.addrN ∈ s.nodes (p :: c :: rest) := (B.hn _ _).2 (.grpcClient hU hr)
    refine ⟨(up.calls _ _).2 ⟨_, hnode, trivial, rfl, ?_⟩, up.once _ hnode trivial⟩
    simp only [obj]
    rw [hdial U hU hr]

end

/-- C113: the services of an application that is deployed with docker-compose are connected.  The docker-compose file is generated (in whatever
order Go visits the containers).  Every deployed service gets a port, which is its own in its container and which the container exposes; backends
have containers of their own, which expose the ports of their images.  When the run.sh of a container is run, with the environment that the
file sets, and its start commands work, each process in it is started once; the
command gives it only flags that it defines; with the flags of the command the process does not stop with an error; each of its services is
built once from what the wiring spec names; its servers listen on the ports of their services; and the clients of a service or backend
dial the container in which the service is, and the port on which it listens. -/
theorem C113_connected {A : App} {rank : Name → Nat} {ds : List Decl} {nodes : List Name} {deployment : Space} {image : Name → Image}
    (fit : A.Fits rank) (dec : A.Declared ds) (req : A.Requests nodes) (dep : Deployable A deployment image) :
    ∃ fuel s, compile (Wired.run ds).env fuel nodes = some (s, .success) ∧
    ∃ w, Workspace.empty.run (composeOps s deployment image) = some w ∧ ∀ o1 o2, o1.Perm w.args → o2.Perm w.args →
    ∃ file h, Deploy.Compose.finish w (heap s deployment image) o1 o2 = .ok (file, h) ∧
    ∃ port : Svc → Nat,
      (∀ S, A.Active nodes S → S.rpc = true → port S ≠ 0 ∧ port S < 65536) ∧
      (∀ S U, A.Active nodes S → S.rpc = true → A.Active nodes U → U.rpc = true → container S = container U → port S = port U → S = U) ∧
      (∀ S, A.Active nodes S → S.back = true → port S = (image S.serverN).port ∧
        ∃ inst, file (cleanName (container S).toList) = some inst ∧ inst.expose (port S) = true) ∧
      ∀ S, A.Active nodes S → S.back = false → ∀ p c, S.home = p :: c :: deployment →
        ∃ inst, file (cleanName c.toList) = some inst ∧ (S.rpc = true → inst.expose (port S) = true) ∧
        ∃ script, Deploy.Run.Generated (procDecls s (c :: deployment)) script ∧
        (∃ beh, Deploy.Run.Succeed (procDecls s (c :: deployment)) beh) ∧
        ∀ img host beh cwd, Deploy.Run.Succeed (procDecls s (c :: deployment)) beh →
          (∃ status sh, Deploy.Run.Ends beh script ⟨containerEnv img host inst, cwd, []⟩ status sh) ∧
          ∀ status sh, Deploy.Run.Ends beh script ⟨containerEnv img host inst, cwd, []⟩ status sh →
            status = 0 ∧ Deploy.Run.timesStarted p.toList sh.starts = 1 ∧
            ∀ e ∈ sh.starts, e.proc = p.toList →
              (∀ f ∈ givenFlags e.text e.env, ∃ t ∈ s.edges (p :: c :: deployment), f.1 = t.name.toList) ∧ ∀ exported runnable,
              ∃ r, (∃ fuel, Proc.start (isClient A) runnable ⟨s.nodes (p :: c :: deployment), s.edges (p :: c :: deployment)⟩
                  (processWorld e.text e.env exported) fuel = some (.running r)) ∧
                (∀ fuel x, Proc.start (isClient A) runnable ⟨s.nodes (p :: c :: deployment), s.edges (p :: c :: deployment)⟩
                  (processWorld e.text e.env exported) fuel = some x → x = .running r) ∧
                Serving A nodes port (p :: c :: deployment) r.log := by
  obtain ⟨H, hH, fuel, s, hcomp, hn, he, hd, -⟩ := C112_whole fit dec req
  have B : Built A rank nodes deployment image H s := ⟨fit, req, dep, hH, hn, he, hd⟩
  refine ⟨fuel, s, hcomp, ?_⟩
  obtain ⟨w, hw, hargs⟩ := B.workspace
  refine ⟨w, hw, fun o1 o2 p1 p2 => ?_⟩
  obtain ⟨file, h, hf, port, K⟩ := B.composed hw hargs p1 p2
  refine ⟨file, h, hf, port, K.ports, K.own, ?_, ?_⟩
  · intro S hS hk
    have hr := (fit.backs S (active_mem hS) hk).1
    obtain ⟨inst, hi, -, -, hexp⟩ := K.inst (container S) (B.binds hS hr).1
    exact ⟨K.fixed S hS hk, inst, hi, hexp S hS hr rfl⟩
  intro S hS hk p c hh
  have hproc : Tree.space p ∈ s.nodes (c :: deployment) := (B.processes c p).2 ⟨S, hS, hk, hh⟩
  have hctr : Tree.space c ∈ s.nodes deployment := (B.containers c).2 ⟨S, p, hS, hk, hh⟩
  obtain ⟨inst, hi, -, -, hexp⟩ := K.inst c (mem_insts.2 (.inl hctr))
  have wf := B.wellFormed c
  obtain ⟨script, hg⟩ := Deploy.Run.C63_generates _ wf
  refine ⟨inst, hi, fun hr => hexp S hS hr (by simp [container, hk, hh]), script, hg, succeed s deployment c, ?_⟩
  intro img host beh cwd hb
  have hac : Deploy.Run.Acyclic (procDecls s (c :: deployment)) :=
    ⟨fun _ => 0, fun d hd x hx hp => absurd hp (B.dep_not_proc hd hx)⟩
  have hset : Deploy.Run.ArgsSet (procDecls s (c :: deployment)) (containerEnv img host inst) := by
    intro d hd x hx _
    obtain ⟨q, hq, rfl⟩ := mem_procDecls.1 hd
    obtain ⟨t, ht, rfl⟩ := List.mem_map.1 hx
    rcases K.value B hi hctr img host (B.up ht) with ⟨_, _, _, _, e⟩ | ⟨_, _, _, _, e⟩ <;> simp [e]
  refine ⟨Deploy.Run.C63_ends _ wf hac script hg beh _, ?_⟩
  intro status sh hends
  obtain ⟨h0, -, hbody⟩ := Deploy.Run.C63_started_partial _ wf hac script hg beh hb _ rfl hset status sh hends
  have honce := Deploy.Run.C63_once_partial _ wf script hg beh hb _ rfl hset
    (fun d hd x hx hp => absurd hp (B.dep_not_proc hd hx)) status sh hends
  refine ⟨h0, honce _ (mem_procDecls.2 ⟨p, hproc, rfl⟩), ?_⟩
  intro e hee hep
  have hplain : ∀ n ∈ (s.edges (p :: c :: deployment)).map Tree.name, ' ' ∉ n.toList ∧ '\n' ∉ n.toList ∧ '=' ∉ n.toList := by
    intro n hn
    obtain ⟨t, ht, rfl⟩ := List.mem_map.1 hn
    have := B.dep.plain _ (B.edge_outer (B.up ht))
    exact ⟨this.1, this.2.1, this.2.2.1⟩
  have hp : ' ' ∉ p.toList := (B.dep.plain _ (B.space_outer hproc).1).1
  have htext : e.text = runBody p ((s.edges (p :: c :: deployment)).map Tree.name) := by
    obtain ⟨later, earlier, he⟩ := List.append_of_mem hee
    obtain ⟨d, hd, e1, e2, -⟩ := hbody later e earlier he
    obtain ⟨q, hq, rfl⟩ := mem_procDecls.1 hd
    have hqp : q = p := String.toList_inj.1 (e1.symm.trans hep)
    subst hqp
    exact hasBody_unique e2 (runFunc_body q _)
  rw [htext]
  refine ⟨?_, ?_⟩
  · intro f hf
    rw [flags_runBody hp hplain] at hf
    obtain ⟨n, hn, rfl⟩ := List.mem_map.1 hf
    obtain ⟨t, ht, rfl⟩ := List.mem_map.1 hn
    exact ⟨t, ht, rfl⟩
  intro exported runnable
  refine B.serving hS hk hh ?_ runnable
  intro t ht
  have henv : e.env (envVar t.name.toList) = containerEnv img host inst (envVar t.name.toList) :=
    Deploy.Run.C63_environment _ wf script hg beh hb ⟨containerEnv img host inst, cwd, []⟩ rfl status sh hends e hee _ (by
      intro d hd e
      obtain ⟨q, hq, rfl⟩ := mem_procDecls.1 hd
      have h1 := B.space_outer hq
      have := B.dep.vars _ _ (B.edge_outer (B.up ht)) h1.1 e
      exact h1.2 (this ▸ B.edge_dot (B.up ht)))
  have hflag : ∀ v : String, e.env (envVar t.name.toList) = some v.toList →
      (processWorld (runBody p ((s.edges (p :: c :: deployment)).map Tree.name)) e.env exported).flag t.name = v :=
    fun v hv => world_runBody hp hplain e.env exported (List.mem_map.2 ⟨t, ht, rfl⟩) hv
  rcases K.value B hi hctr img host (B.up ht) with ⟨V, hV, hr, et, ev⟩ | ⟨V, hV, hr, et, ev⟩
  · exact .inl ⟨V, hV, hr, et, hflag _ (henv.trans ev)⟩
  · exact .inr ⟨V, hV, hr, et, hflag _ (henv.trans ev)⟩

end Verif.Live
