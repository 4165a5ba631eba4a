import Verif.Compile.Seen
/-
C112: compiling a wiring spec with services, wrappers, gRPC, HTTP or Thrift, processes and containers builds exactly the application that was declared.
-/
namespace Verif.Compile
open Verif.Wiring (Name)

/-- C112: the compilation succeeds, and each namespace (process, container, the application itself) then consists of exactly the nodes
that it should have, each once: at home, an active service, built from clients of the services that its constructor's arguments name, its
wrappers in the order of their declarations and its server; where the service is called, one client with its wrappers; the processes in
their containers.  Each process and container gets from outside exactly the addresses that its servers bind and its clients dial, and each
address leads to its service's server. -/
theorem C112_whole {A : App} {rank : Name → Nat} {ds : List Decl} {nodes : List Name} (fit : A.Fits rank) (dec : A.Declared ds)
    (req : A.Requests nodes) :
    ∃ H : Svc → Tree, (∀ S, A.Active nodes S → S.back = false → H S = .handler S.name (S.args.map (A.argTree H))) ∧
    ∃ fuel s, compile (Wired.run ds).env fuel nodes = some (s, .success) ∧
      (∀ sp t, t ∈ s.nodes sp ↔ A.Expected nodes H sp t) ∧
      (∀ sp t, t ∈ s.edges sp ↔ A.Needed nodes sp t) ∧
      (∀ sp, ((s.nodes sp ++ s.edges sp).map Tree.name).Nodup) ∧
      ∀ a t, s.dest a = some t ↔ ∃ S, A.Active nodes S ∧ S.rpc = true ∧ a = S.addrN ∧ t = S.servedTree (H S) := by
  have F := facts_of fit dec
  have C := closed_of fit req
  have snd := sound fit F C
  obtain ⟨H, hH⟩ := den_handlers fit F C
  refine ⟨H, fun S hS hk => (hH S hS hk).1, ?_⟩
  obtain ⟨fuel, s, hc, inv, hq, hn⟩ := compile_ok snd nodes (by
    intro n hn
    rcases req n hn with ⟨S, hS, rfl, hu⟩ | ⟨S, hS, a, e, e'⟩
    · have hc : A.Calls nodes [] S := ⟨hS, .inl ⟨rfl, hn⟩⟩
      obtain ⟨⟨d, hd⟩, hp⟩ := (den_client fit F C hc (local_handler fit F C hH (C.called _ _ hc).1)).1
      exact ⟨d, _, hd, fun h => by rw [hp] at h; cases h⟩
    · have hA : A.Active nodes S := .space hS hn (by simp [e])
      obtain ⟨d, hd⟩ := den_space fit F C hA (a := a) (b := []) (x := n) (by simp [Svc.home, e, e'])
      exact ⟨d, _, hd, fun h => by cases h⟩)
  exact ⟨fuel, s, hc, nodes_iff fit F req hH inv hq hn, edges_iff fit F req hH inv hq hn, inv.distinct,
    dest_iff fit F req hH inv hq hn⟩

theorem mem_zip {α β : Type} : ∀ (l : List α) (r : List β), l.length = r.length → ∀ b ∈ r, ∃ a, (a, b) ∈ l.zip r
  | _, [], _, _, h => by cases h
  | [], _ :: _, h, _, _ => by cases h
  | a :: l, c :: r, h, b, hb => by
    rcases List.mem_cons.1 hb with rfl | hb
    · exact ⟨a, by simp⟩
    · obtain ⟨a', h'⟩ := mem_zip l r (by simpa using h) b hb
      exact ⟨a', by simp [h']⟩

/-- The application determines what its services are built from. -/
theorem handlers_unique {A : App} {rank : Name → Nat} {nodes : List Name} (fit : A.Fits rank) {H H' : Svc → Tree}
    (h : ∀ S, A.Active nodes S → S.back = false → H S = .handler S.name (S.args.map (A.argTree H)))
    (h' : ∀ S, A.Active nodes S → S.back = false → H' S = .handler S.name (S.args.map (A.argTree H'))) :
    ∀ (N : Nat) (S : Svc), rank S.name < N → A.Active nodes S → S.back = false → H S = H' S
  | 0, _, hN, _, _ => by omega
  | N + 1, S, hN, hS, hk => by
    rw [h S hS hk, h' S hS hk]
    congr 1
    refine List.map_congr_left ?_
    intro a ha
    obtain ⟨hlen, hargs⟩ := fit.args S (active_mem hS)
    obtain ⟨str, hz⟩ := mem_zip _ _ hlen a ha
    unfold App.argTree
    cases e : A.svcs.find? (fun U => U.name == a) with
    | none => rfl
    | some U =>
      have hU := List.mem_of_find?_eq_some e
      have hn : U.name = a := by simpa using List.find?_some e
      subst hn
      have hUA : A.Active nodes U := .called hS hz hU
      simp only [Svc.clientTree, Svc.calledTree]
      cases hr : U.rpc with
      | true => rfl
      | false =>
        have hUk : U.back = false := by
          cases hb : U.back with
          | false => rfl
          | true => rw [(fit.backs U hU hb).1] at hr; cases hr
        rcases hargs str _ hz with ⟨_, hf⟩ | ⟨V, hV, e1, _, hrk⟩
        · exact absurd (self_name U) (hf.1 U hU)
        · have := fit.one V hV U hU e1
          subst this
          rw [handlers_unique fit h h' N V (by have := hrk hr; omega) hUA hUk]

theorem active_mono {A : App} {nodes nodes' : List Name} (h : ∀ n, n ∈ nodes → n ∈ nodes') {S : Svc} (hS : A.Active nodes S) :
    A.Active nodes' S := by
  induction hS with
  | requested h1 h2 => exact .requested h1 (h _ h2)
  | space h1 h2 h3 => exact .space h1 (h _ h2) h3
  | beside _ h2 h3 h4 ih => exact .beside ih h2 h3 h4
  | called _ h2 h3 ih => exact .called ih h2 h3

theorem calls_mono {A : App} {nodes nodes' : List Name} (h : ∀ n, n ∈ nodes → n ∈ nodes') {sp : Space} {S : Svc}
    (hS : A.Calls nodes sp S) : A.Calls nodes' sp S := by
  obtain ⟨h1, ⟨rfl, h2⟩ | ⟨V, str, h2, rfl, h3⟩⟩ := hS
  · exact ⟨h1, .inl ⟨rfl, h _ h2⟩⟩
  · exact ⟨h1, .inr ⟨V, str, active_mono h h2, rfl, h3⟩⟩

/-- The container of a backend is not built from a service. -/
theorem served_eq {S : Svc} {t t' : Tree} (h : S.back = false → t = t') : S.servedTree t = S.servedTree t' := by
  cases hk : S.back with
  | false => rw [h hk]
  | true => simp [Svc.servedTree, hk]

theorem expected_mono {A : App} {nodes nodes' : List Name} (h : ∀ n, n ∈ nodes → n ∈ nodes') {H H' : Svc → Tree}
    (hH : ∀ S, A.Active nodes S → S.back = false → H S = H' S) (hc : ∀ sp S, A.Calls nodes sp S → A.Active nodes S) {sp : Space} {t : Tree}
    (ht : A.Expected nodes H sp t) : A.Expected nodes' H' sp t := by
  cases ht with
  | handler hS hk => rw [hH _ hS hk]; exact .handler (active_mono h hS) hk
  | serverWrap hS hk e => rw [hH _ hS hk]; exact .serverWrap (active_mono h hS) hk e
  | server hS hr => rw [served_eq (hH _ hS)]; exact .server (active_mono h hS) hr
  | client h1 hk => rw [hH _ (hc _ _ h1) hk]; exact .client (calls_mono h h1) hk
  | clientWrap h1 hk e => rw [hH _ (hc _ _ h1) hk]; exact .clientWrap (calls_mono h h1) hk e
  | grpcClient h1 hr => exact .grpcClient (calls_mono h h1) hr
  | visibility hS hk => exact .visibility (active_mono h hS) hk
  | addr hS hr => exact .addr (active_mono h hS) hr
  | bind hS hr => exact .bind (active_mono h hS) hr
  | dial h1 hr => exact .dial (calls_mono h h1) hr
  | space hS e => exact .space (active_mono h hS) e

theorem needed_mono {A : App} {nodes nodes' : List Name} (h : ∀ n, n ∈ nodes → n ∈ nodes') {sp : Space} {t : Tree}
    (ht : A.Needed nodes sp t) : A.Needed nodes' sp t := by
  cases ht with
  | bind hS hr e => exact .bind (active_mono h hS) hr e
  | dial h1 hr => exact .dial (calls_mono h h1) hr

/-- C112: what is built depends on the application only: not on how the declarations about different services and namespaces are
interleaved, nor on the order of what is asked for. -/
theorem C112_order {A : App} {rank : Name → Nat} {ds ds' : List Decl} {nodes nodes' : List Name} {f f' : Nat} {s s' : St}
    {e e' : Ending} (fit : A.Fits rank) (dec : A.Declared ds) (dec' : A.Declared ds') (req : A.Requests nodes)
    (hn : ∀ n, n ∈ nodes ↔ n ∈ nodes') (h : compile (Wired.run ds).env f nodes = some (s, e))
    (h' : compile (Wired.run ds').env f' nodes' = some (s', e')) :
    e = .success ∧ e' = .success ∧ (∀ sp t, t ∈ s.nodes sp ↔ t ∈ s'.nodes sp) ∧ (∀ sp t, t ∈ s.edges sp ↔ t ∈ s'.edges sp) ∧
      ∀ a, s.dest a = s'.dest a := by
  have req' : A.Requests nodes' := fun n h => req n ((hn n).2 h)
  obtain ⟨H, hH, f1, s1, c1, n1, e1, _, d1⟩ := C112_whole fit dec req
  obtain ⟨H', hH', f2, s2, c2, n2, e2, _, d2⟩ := C112_whole fit dec' req'
  have k1 := compile_det h c1
  have k2 := compile_det h' c2
  cases k1; cases k2
  have hm : ∀ n, n ∈ nodes → n ∈ nodes' := fun n => (hn n).1
  have hm' : ∀ n, n ∈ nodes' → n ∈ nodes := fun n => (hn n).2
  have hu : ∀ S, A.Active nodes S → S.back = false → H S = H' S := fun S hS hk =>
    handlers_unique fit hH (fun S hS => hH' S (active_mono hm hS)) (rank S.name + 1) S (by omega) hS hk
  have hu' : ∀ S, A.Active nodes' S → S.back = false → H' S = H S := fun S hS hk => (hu S (active_mono hm' hS) hk).symm
  refine ⟨rfl, rfl, ?_, ?_, ?_⟩
  · intro sp t
    rw [n1, n2]
    exact ⟨expected_mono hm hu fun _ _ h => ((closed_of fit req).called _ _ h).1,
      expected_mono hm' hu' fun _ _ h => ((closed_of fit req').called _ _ h).1⟩
  · intro sp t
    rw [e1, e2]
    exact ⟨needed_mono hm, needed_mono hm'⟩
  · intro a
    refine Option.ext fun t => ?_
    rw [d1, d2]
    constructor
    · rintro ⟨S, hS, hr, ea, et⟩
      exact ⟨S, active_mono hm hS, hr, ea, by rw [et, served_eq (hu S hS)]⟩
    · rintro ⟨S, hS, hr, ea, et⟩
      exact ⟨S, active_mono hm' hS, hr, ea, by rw [et, served_eq (hu' S hS)]⟩

/-- C112: an active service is built in its process, once, and nowhere else. -/
theorem C112_once {A : App} {rank : Name → Nat} {ds : List Decl} {nodes : List Name} {f : Nat} {s : St} {e : Ending} (fit : A.Fits rank)
    (dec : A.Declared ds) (req : A.Requests nodes) (h : compile (Wired.run ds).env f nodes = some (s, e)) {S : Svc}
    (hS : A.Active nodes S) (hk : S.back = false) (sp : Space) :
    (∃ args, .handler S.name args ∈ s.nodes sp) ↔ sp = S.home := by
  obtain ⟨H, hH, f1, s1, c1, n1, _, _, _⟩ := C112_whole fit dec req
  cases compile_det h c1
  constructor
  · rintro ⟨args, ha⟩
    have ho : ∀ l x (t : Tree), wrapOut (l ++ [x]) t ≠ .handler S.name args := by
      intro l x t e
      rw [wrapOut_snoc] at e
      cases e
    generalize et : Tree.handler S.name args = t at ha
    cases (n1 sp t).1 ha with
    | @handler V hV hk =>
      rw [hH V hV hk] at et
      injection et with e1 _
      rw [fit.one S (active_mem hS) V (active_mem hV) e1]
    | serverWrap hV _ e => exact absurd et.symm (ho _ _ _)
    | server hV hr => unfold Svc.servedTree at et; rw [if_pos hr] at et; split at et <;> cases et
    | client hc hk => unfold Svc.clientTree at et; rw [if_neg (by simp [hk])] at et; cases et
    | clientWrap hc _ e => cases et
    | grpcClient hc hr => cases et
    | visibility hV => cases et
    | addr hV hr => cases et
    | bind hV hr => cases et
    | dial hc hr => cases et
    | space hV e => cases et
  · rintro rfl
    exact ⟨_, (n1 _ _).2 (by rw [← hH S hS hk]; exact .handler hS hk)⟩

theorem one_of {A : App} {rank : Name → Nat} (fit : A.Fits rank) {S S' : Svc} (hS : S ∈ A.svcs) (hS' : S' ∈ A.svcs) {n : Name}
    (h : n ∈ S.names) (h' : n ∈ S'.names) : S = S' :=
  fit.one S hS S' hS' (String.toList_inj.1 ((fam_names (fit.own S hS).1 n h).symm.trans (fam_names (fit.own S' hS').1 n h')))

/-- C126: the container of an active backend, such as a database, is built where the backend was put, once and nowhere else, and it has the
backend's address. -/
theorem C126_container {A : App} {rank : Name → Nat} {ds : List Decl} {nodes : List Name} {f : Nat} {s : St} {e : Ending} (fit : A.Fits rank)
    (dec : A.Declared ds) (req : A.Requests nodes) (h : compile (Wired.run ds).env f nodes = some (s, e)) {S : Svc}
    (hS : A.Active nodes S) (hk : S.back = true) (sp : Space) (a : Name) :
    .container (ctrN S.name) a ∈ s.nodes sp ↔ sp = S.home ∧ a = ctrAddrN S.name := by
  obtain ⟨H, hH, f1, s1, c1, n1, _, _, _⟩ := C112_whole fit dec req
  cases compile_det h c1
  have hrpc := (fit.backs S (active_mem hS) hk).1
  have hm : ∀ {V : Svc}, V.rpc = true → V.serverN ∈ V.names := by
    intro V hv
    unfold Svc.names; simp [hv, rpcNames]
  have eS : S.serverN = ctrN S.name := by simp [Svc.serverN, hk]
  have eA : S.addrN = ctrAddrN S.name := by simp [Svc.addrN, hk]
  constructor
  · intro ha
    have ho : ∀ l x (t : Tree), wrapOut (l ++ [x]) t ≠ .container (ctrN S.name) a := by
      intro l x t e
      rw [wrapOut_snoc] at e
      cases e
    generalize et : Tree.container (ctrN S.name) a = t at ha
    cases (n1 sp t).1 ha with
    | handler hV hk => rw [hH _ hV hk] at et; cases et
    | serverWrap hV _ e => exact absurd et.symm (ho _ _ _)
    | @server V hV hr =>
      unfold Svc.servedTree at et
      rw [if_pos hr] at et
      split at et
      · injection et with e1 e2
        have := one_of fit (active_mem hS) (active_mem hV) (hm hrpc) (eS.trans e1 ▸ hm hr)
        subst this
        exact ⟨rfl, e2.trans eA⟩
      · cases et
    | client hc hk => unfold Svc.clientTree at et; rw [if_neg (by simp [hk])] at et; cases et
    | clientWrap hc _ e => cases et
    | grpcClient hc hr => cases et
    | visibility hV => cases et
    | addr hV hr => cases et
    | bind hV hr => cases et
    | dial hc hr => cases et
    | space hV e => cases et
  · rintro ⟨rfl, rfl⟩
    have := (n1 S.home _).2 (.server hS hrpc)
    unfold Svc.servedTree at this
    rwa [if_pos hk, eS, eA] at this

/-- C126: the backend's client, where a service that is built depends on the backend, dials the address of that container. -/
theorem C126_client {A : App} {rank : Name → Nat} {ds : List Decl} {nodes : List Name} {f : Nat} {s : St} {e : Ending} (fit : A.Fits rank)
    (dec : A.Declared ds) (req : A.Requests nodes) (h : compile (Wired.run ds).env f nodes = some (s, e)) {S U : Svc} {str : Bool}
    (hS : A.Active nodes S) (hU : U ∈ A.svcs) (hk : U.back = true) (ha : (str, U.name) ∈ S.ctor.zip S.args) :
    (∃ args, .handler S.name args ∈ s.nodes S.home ∧ .grpcClient (clientN U.name) (ctrAddrN U.name) ∈ args) ∧
    .grpcClient (clientN U.name) (ctrAddrN U.name) ∈ s.nodes S.home ∧
    .container (ctrN U.name) (ctrAddrN U.name) ∈ s.nodes U.home ∧
    s.dest (ctrAddrN U.name) = some (.container (ctrN U.name) (ctrAddrN U.name)) := by
  obtain ⟨H, hH, f1, s1, c1, n1, _, _, d1⟩ := C112_whole fit dec req
  cases compile_det h c1
  have hrpc := (fit.backs U hU hk).1
  have hUA : A.Active nodes U := .called hS ha hU
  have eS : U.serverN = ctrN U.name := by simp [Svc.serverN, hk]
  have eA : U.addrN = ctrAddrN U.name := by simp [Svc.addrN, hk]
  have eC : U.rpcClientN = clientN U.name := by simp [Svc.rpcClientN, hk]
  have et : ∀ t, U.servedTree t = .container (ctrN U.name) (ctrAddrN U.name) := by
    intro t
    simp [Svc.servedTree, hk, eS, eA]
  have hSk := args_front fit (active_mem hS) ha
  refine ⟨⟨S.args.map (A.argTree H), (n1 _ _).2 (by rw [← hH S hS hSk]; exact .handler hS hSk), ?_⟩, ?_, ?_, ?_⟩
  · refine List.mem_map.2 ⟨U.name, (List.of_mem_zip ha).2, ?_⟩
    unfold App.argTree
    cases e : A.svcs.find? (fun V => V.name == U.name) with
    | none =>
      have := List.find?_eq_none.1 e U hU
      simp at this
    | some V =>
      have hV := List.mem_of_find?_eq_some e
      have hn : V.name = U.name := by simpa using List.find?_some e
      have := fit.one V hV U hU hn
      subst this
      simp [Svc.clientTree, Svc.calledTree, hk, hrpc, eC, eA]
  · have := (n1 S.home _).2 (.grpcClient (H := H) ⟨hU, .inr ⟨S, str, hS, rfl, ha⟩⟩ hrpc)
    rwa [eC, eA] at this
  · have := (n1 U.home _).2 (.server hUA hrpc)
    rwa [et] at this
  · exact (d1 _ _).2 ⟨U, hUA, hrpc, eA.symm, (et _).symm⟩

end Verif.Compile
