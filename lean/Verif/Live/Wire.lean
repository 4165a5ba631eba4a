import Verif.Live.Objects
import Verif.Live.DeployModel
import Verif.Deploy.ComposeMore
import Verif.Deploy.RunEnv
/-
The containers and processes of a compiled application.
-/
namespace Verif.Live
open Verif.Wiring (Name)
open Verif.Compile
open Verif.Strings (cleanName envVar funcName)

/-- A compiled application that can be deployed. -/
structure Built (A : App) (rank : Name → Nat) (nodes : List Name) (rest : Space) (image : Name → Image) (H : Svc → Tree)
    (s : St) : Prop where
  fit : A.Fits rank
  req : A.Requests nodes
  dep : Deployable A rest image
  hH : ∀ S, A.Active nodes S → S.back = false → H S = .handler S.name (S.args.map (A.argTree H))
  hn : ∀ sp t, t ∈ s.nodes sp ↔ A.Expected nodes H sp t
  he : ∀ sp t, t ∈ s.edges sp ↔ A.Needed nodes sp t
  hd : ∀ sp, ((s.nodes sp ++ s.edges sp).map Tree.name).Nodup

/-- What an address's name ends in, and its bind and dial configs' names. -/
theorem addr_text (S : Svc) : ∃ k : Name, '.' ∈ k.toList ∧ S.addrN = S.name ++ k ++ "addr" ∧ bindName S.addrN = S.name ++ k ++ "bind_addr" ∧
    dialName S.addrN = S.name ++ k ++ "dial_addr" := by
  unfold Svc.addrN
  cases S.back with
  | true =>
    refine ⟨".", by decide, ?_⟩
    simp only [if_true, ctrAddrN]
    rw [bindName_ctr, dialName_ctr, String.append_assoc, String.append_assoc, String.append_assoc]
    exact ⟨rfl, rfl, rfl⟩
  | false =>
    refine ⟨S.proto.stem ++ ".", by cases S.proto <;> decide, ?_⟩
    simp only [Bool.false_eq_true, if_false, addrN]
    rw [bindName_addr, dialName_addr]
    cases S.proto <;> simp only [String.append_assoc] <;> exact ⟨rfl, rfl, rfl⟩

theorem append_dot {T k m : Name} (h : '.' ∈ k.toList) : '.' ∈ (T ++ k ++ m).toList := by
  rw [String.toList_append, String.toList_append]
  simp [h]

theorem bind_dot (S : Svc) : '.' ∈ (bindName S.addrN).toList := by
  obtain ⟨k, hk, -, e, -⟩ := addr_text S
  rw [e]; exact append_dot hk
theorem dial_dot (S : Svc) : '.' ∈ (dialName S.addrN).toList := by
  obtain ⟨k, hk, -, -, e⟩ := addr_text S
  rw [e]; exact append_dot hk

theorem take_append (a b : List Char) (h : b.length = 9) : (a ++ b).take ((a ++ b).length - 9) = a := by
  rw [List.length_append, h, show a.length + 9 - 9 = a.length by omega, List.take_left]

theorem addrOf_bind (S : Svc) : addrOf (bindName S.addrN) = S.addrN.toList := by
  obtain ⟨k, -, e1, e2, -⟩ := addr_text S
  rw [e2, e1]
  unfold addrOf
  rw [String.toList_append (s := S.name ++ k), take_append _ _ (by decide), String.toList_append (s := S.name ++ k)]

theorem addrOf_dial (S : Svc) : addrOf (dialName S.addrN) = S.addrN.toList := by
  obtain ⟨k, -, e1, -, e2⟩ := addr_text S
  rw [e2, e1]
  unfold addrOf
  rw [String.toList_append (s := S.name ++ k), take_append _ _ (by decide), String.toList_append (s := S.name ++ k)]

/-- Names that an rpc service has are its own. -/
theorem rpc_name {S : Svc} (hr : S.rpc = true) {n : Name} (h : n ∈ rpcNames S) : n ∈ S.names := by
  unfold Svc.names
  rw [if_pos hr]
  exact List.mem_append_left _ (List.mem_append_right _ h)

theorem server_dot (S : Svc) : '.' ∈ S.serverN.toList := by
  unfold Svc.serverN ctrN serverN
  split
  · exact dots_mem (by decide)
  · exact dots_mem (Proto.server_dot _)

section
variable {A : App} {rank : Name → Nat} {nodes : List Name} {rest : Space} {image : Name → Image} {H : Svc → Tree} {s : St}

theorem Built.edges_nodup (B : Built A rank nodes rest image H s) (sp : Space) : ((s.edges sp).map Tree.name).Nodup := by
  have := B.hd sp
  rw [List.map_append, List.nodup_append] at this
  exact this.2.1

theorem Built.nodes_nodup (B : Built A rank nodes rest image H s) (sp : Space) : ((s.nodes sp).map Tree.name).Nodup := by
  have := B.hd sp
  rw [List.map_append, List.nodup_append] at this
  exact this.1

/-- The containers of the deployment. -/
theorem Built.containers (B : Built A rank nodes rest image H s) (c : Name) :
    .space c ∈ s.nodes rest ↔ ∃ S p, A.Active nodes S ∧ S.back = false ∧ S.home = p :: c :: rest := by
  rw [B.hn]
  constructor
  · intro h
    generalize et : Tree.space c = t at h
    cases h with
    | @space S a b x hS e =>
      injection et with ex
      subst ex
      cases hk : S.back with
      | true => rw [B.dep.backends S (active_mem hS) hk] at e; exact absurd (congrArg List.length e) (by simp; try omega)
      | false =>
      obtain ⟨p, c', e'⟩ := B.dep.places S (active_mem hS) hk
      rw [e'] at e
      match a, e with
      | [], e => exact absurd (congrArg List.length e) (by simp)
      | [q], e => simp at e; exact ⟨S, p, hS, hk, by rw [e', e.2]⟩
      | q :: q' :: a, e => exact absurd (congrArg List.length e) (by simp; omega)
    | @handler S hS hk => rw [B.hH S hS hk] at et; cases et
    | serverWrap hS hk e => rw [wrapOut_snoc] at et; cases et
    | server hS hr => unfold Svc.servedTree at et; rw [if_pos hr] at et; split at et <;> cases et
    | client hS hk => simp only [Svc.clientTree, hk, Bool.false_eq_true, if_false] at et; cases et
    | clientWrap => cases et
    | grpcClient => cases et
    | visibility => cases et
    | addr => cases et
    | bind => cases et
    | dial => cases et
  · rintro ⟨S, p, hS, -, e⟩
    exact .space (a := [p]) hS e

/-- The processes of a container. -/
theorem Built.processes (B : Built A rank nodes rest image H s) (c x : Name) :
    .space x ∈ s.nodes (c :: rest) ↔ ∃ S, A.Active nodes S ∧ S.back = false ∧ S.home = x :: c :: rest := by
  rw [B.hn]
  constructor
  · intro h
    generalize et : Tree.space x = t at h
    generalize esp : c :: rest = sp at h
    cases h with
    | @space S a b y hS e =>
      injection et with ex
      subst ex
      subst esp
      cases hk : S.back with
      | true => rw [B.dep.backends S (active_mem hS) hk] at e; exact absurd (congrArg List.length e) (by simp; try omega)
      | false =>
      obtain ⟨p, c', e'⟩ := B.dep.places S (active_mem hS) hk
      rw [e'] at e
      match a, e with
      | [], e => exact ⟨S, hS, hk, by rw [e', e]; rfl⟩
      | q :: a, e => exact absurd (congrArg List.length e) (by simp; omega)
    | @handler S hS hk => rw [B.hH S hS hk] at et; cases et
    | serverWrap hS hk e => rw [wrapOut_snoc] at et; cases et
    | server hS hr => unfold Svc.servedTree at et; rw [if_pos hr] at et; split at et <;> cases et
    | client hS hk => simp only [Svc.clientTree, hk, Bool.false_eq_true, if_false] at et; cases et
    | clientWrap => cases et
    | grpcClient => cases et
    | visibility => cases et
    | addr => cases et
    | bind => cases et
    | dial => cases et
  · rintro ⟨S, hS, -, e⟩
    exact .space (a := []) hS e

/-- What a container gets from outside. -/
theorem Built.container_edges (B : Built A rank nodes rest image H s) {c : Name} {t : Tree} (h : t ∈ s.edges (c :: rest)) :
    (∃ S, A.Active nodes S ∧ S.rpc = true ∧ S.back = false ∧ container S = c ∧ t = .bind (bindName S.addrN)) ∨
    ∃ U, A.Active nodes U ∧ U.rpc = true ∧ t = .dial (dialName U.addrN) := by
  have h := (B.he _ _).1 h
  generalize esp : c :: rest = sp at h
  cases h with
  | @bind S a b x hS hr e =>
    left
    injection esp with e1 e2
    subst e1; subst e2
    cases hk : S.back with
    | true => rw [B.dep.backends S (active_mem hS) hk] at e; exact absurd (congrArg List.length e) (by simp; try omega)
    | false =>
    obtain ⟨p, c', e'⟩ := B.dep.places S (active_mem hS) hk
    refine ⟨S, hS, hr, hk, ?_, rfl⟩
    unfold container
    simp only [hk, Bool.false_eq_true, if_false]
    rw [e'] at e ⊢
    match a, e with
    | [], e => exact absurd (congrArg List.length e) (by simp)
    | [q], e => simp at e; simp [e.2]
    | q :: q' :: a, e => exact absurd (congrArg List.length e) (by simp; omega)
  | @dial U a b x hc hr =>
    exact .inr ⟨U, ((closed_of B.fit B.req).called _ _ hc).1, hr, rfl⟩

theorem Built.edge_outer (B : Built A rank nodes rest image H s) {c : Name} {t : Tree} (h : t ∈ s.edges (c :: rest)) : Outer A t.name := by
  rcases B.container_edges h with ⟨S, hS, hr, _, _, rfl⟩ | ⟨U, hU, hr, rfl⟩
  · exact .inr ⟨S, active_mem hS, hr, .inl rfl⟩
  · exact .inr ⟨U, active_mem hU, hr, .inr (.inl rfl)⟩

theorem Built.edge_dot (B : Built A rank nodes rest image H s) {c : Name} {t : Tree} (h : t ∈ s.edges (c :: rest)) : '.' ∈ t.name.toList := by
  rcases B.container_edges h with ⟨S, hS, hr, _, _, rfl⟩ | ⟨U, hU, hr, rfl⟩
  · exact bind_dot _
  · exact dial_dot _

/-- What a process gets from outside, its container gets from outside. -/
theorem Built.up (B : Built A rank nodes rest image H s) {c x : Name} {t : Tree} (h : t ∈ s.edges (x :: c :: rest)) : t ∈ s.edges (c :: rest) := by
  rw [B.he] at h ⊢
  generalize esp : x :: c :: rest = sp at h
  cases h with
  | @bind S a b y hS hr e =>
    injection esp with e1 e2
    subst e1; subst e2
    exact .bind (a := a ++ [x]) hS hr (by rw [e]; simp)
  | @dial U a b y hc hr =>
    injection esp with e1 e2
    subst e1; subst e2
    exact .dial (a := a ++ [x]) (by simpa using hc) hr

theorem Built.bind_known (B : Built A rank nodes rest image H s) {S : Svc} (hS : A.Active nodes S) (hr : S.rpc = true) :
    bindName S.addrN ∈ allConfigs s := by
  have h : Tree.bind (bindName S.addrN) ∈ s.nodes [] := (B.hn _ _).2 (.bind hS hr)
  exact List.mem_map.2 ⟨_, h, rfl⟩

theorem bindId_get {all : List Name} {n : Name} (h : n ∈ all) : all[bindId all n]? = some n := by
  unfold bindId
  have hl := List.idxOf_lt_length_of_mem h
  rw [List.getElem?_eq_getElem hl, List.getElem_idxOf hl]

theorem bindId_inj {all : List Name} {n m : Name} (hn : n ∈ all) (hm : m ∈ all) (e : bindId all n = bindId all m) : n = m := by
  have h1 := bindId_get hn
  have h2 := bindId_get hm
  rw [e, h2] at h1
  exact (Option.some.inj h1).symm

/-- The prebuilt containers of the deployment. -/
theorem Built.prebuilt (B : Built A rank nodes rest image H s) (c a : Name) :
    .container c a ∈ s.nodes rest ↔ ∃ S, A.Active nodes S ∧ S.back = true ∧ c = S.serverN ∧ a = S.addrN := by
  rw [B.hn]
  constructor
  · intro h
    generalize et : Tree.container c a = t at h
    cases h with
    | space => cases et
    | @handler S hS hk => rw [B.hH S hS hk] at et; cases et
    | serverWrap hS hk e => rw [wrapOut_snoc] at et; cases et
    | @server S hS hr =>
      unfold Svc.servedTree at et
      rw [if_pos hr] at et
      split at et
      · rename_i hk
        injection et with e1 e2
        exact ⟨S, hS, hk, e1, e2⟩
      · cases et
    | client hS hk => simp only [Svc.clientTree, hk, Bool.false_eq_true, if_false] at et; cases et
    | clientWrap => cases et
    | grpcClient => cases et
    | visibility => cases et
    | addr => cases et
    | bind => cases et
    | dial => cases et
  · rintro ⟨S, hS, hk, rfl, rfl⟩
    have := App.Expected.server (H := H) hS (B.fit.backs S (active_mem hS) hk).1
    rw [B.dep.backends S (active_mem hS) hk] at this
    simpa [Svc.servedTree, hk] using this

theorem bind_inj {A : App} {rank : Name → Nat} (fit : A.Fits rank) {S U : Svc} (hS : S ∈ A.svcs) (hU : U ∈ A.svcs) (hrS : S.rpc = true)
    (hrU : U.rpc = true) (e : bindName S.addrN = bindName U.addrN) : S = U := by
  refine names_disjoint fit hS hU (n := bindName S.addrN) (rpc_name hrS (by simp [rpcNames])) ?_
  rw [e]
  exact rpc_name hrU (by simp [rpcNames])

theorem dial_inj {A : App} {rank : Name → Nat} (fit : A.Fits rank) {S U : Svc} (hS : S ∈ A.svcs) (hU : U ∈ A.svcs) (hrS : S.rpc = true)
    (hrU : U.rpc = true) (e : dialName S.addrN = dialName U.addrN) : S = U := by
  refine names_disjoint fit hS hU (n := dialName S.addrN) (rpc_name hrS (by simp [rpcNames])) ?_
  rw [e]
  exact rpc_name hrU (by simp [rpcNames])

theorem addr_inj {A : App} {rank : Name → Nat} (fit : A.Fits rank) {S U : Svc} (hS : S ∈ A.svcs) (hU : U ∈ A.svcs) (hrS : S.rpc = true)
    (hrU : U.rpc = true) (e : S.addrN = U.addrN) : S = U := by
  refine names_disjoint fit hS hU (n := S.addrN) (rpc_name hrS (by simp [rpcNames])) ?_
  rw [e]
  exact rpc_name hrU (by simp [rpcNames])

theorem Built.bound (B : Built A rank nodes rest image H s) {S : Svc} (hS : A.Active nodes S) (hr : S.rpc = true) :
    boundBy s rest (bindName S.addrN) = if S.back then some S.serverN else none := by
  have inj : ∀ c a, .container c a ∈ s.nodes rest → bindName a = bindName S.addrN → S.back = true ∧ c = S.serverN := by
    intro c a h e
    obtain ⟨U, hU, hk, rfl, rfl⟩ := (B.prebuilt c a).1 h
    have := bind_inj B.fit (active_mem hU) (active_mem hS) (B.fit.backs U (active_mem hU) hk).1 hr e
    subst this
    exact ⟨hk, rfl⟩
  unfold boundBy
  cases hf : (s.nodes rest).findSome? _ with
  | some c =>
    obtain ⟨t, ht, e⟩ := List.exists_of_findSome?_eq_some hf
    cases t with
    | container c' a =>
      simp only at e
      split at e
      · rename_i hb
        cases e
        obtain ⟨h1, h2⟩ := inj _ _ ht hb
        rw [if_pos h1, h2]
      · cases e
    | _ => cases e
  | none =>
    rw [List.findSome?_eq_none_iff] at hf
    cases hk : S.back with
    | false => rfl
    | true =>
      have := hf _ ((B.prebuilt _ _).2 ⟨S, hS, hk, rfl, rfl⟩)
      simp at this

theorem prefers_le (n : Name) : prefers n ≤ 12345 := by
  unfold prefers
  split <;> simp

/-- The bind config of a service. -/
theorem Built.heap_bind (B : Built A rank nodes rest image H s) {S : Svc} (hS : A.Active nodes S) (hr : S.rpc = true) :
    heap s rest image (bindId (allConfigs s) (bindName S.addrN)) =
      ⟨(bindName S.addrN).toList, S.addrN.toList, if S.back then (image S.serverN).port else 0, if S.back then 0 else prefers (bindName S.addrN)⟩ := by
  unfold heap
  rw [bindId_get (B.bind_known hS hr)]
  simp only
  rw [B.bound hS hr, addrOf_bind]
  cases S.back <;> rfl

theorem Built.heap_16 (B : Built A rank nodes rest image H s) : Deploy.Ports16 (heap s rest image) := by
  intro i
  unfold heap
  split
  · rename_i n _
    split
    · rename_i c hc
      unfold boundBy at hc
      obtain ⟨t, ht, e⟩ := List.exists_of_findSome?_eq_some hc
      cases t with
      | container c' a =>
        simp only at e
        split at e
        · cases e
          obtain ⟨U, hU, hk, rfl, rfl⟩ := (B.prebuilt _ _).1 ht
          exact ⟨(B.dep.images U (active_mem hU) hk).2, by simp⟩
        · cases e
      | _ => cases e
    · have := prefers_le n
      exact ⟨by simp, by simp only; omega⟩
  · simp

theorem heap_room (s : St) (rest : Space) (image : Name → Image) (i : Nat) : (heap s rest image i).preferred ≤ 12345 := by
  unfold heap
  split
  · split
    · simp
    · exact prefers_le _
  · simp

end

end Verif.Live
