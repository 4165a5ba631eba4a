import Verif.Compile.Props
/-
C112: when the names that plugins make for a service are different.
-/
namespace Verif.Compile
open Verif.Wiring (Name nextOf)

/-- What plugins append to the name of a service, apart from its wrappers and places. -/
def Svc.fixedSuffixes (S : Svc) : List Name :=
  (if S.back then ["", ".dst", ".src", ".ctr.visibility", ".ctr.uniqueness_check"]
    else ["", ".handler", ".handler.visibility", ".handler.uniqueness_check", ".dst", ".src", ".client", ".client.ptr.src.next"]) ++
  (if S.rpc then
    if S.back then [".addr", ".bind_addr", ".dial_addr", ".client", ".client.ptr.src.next", ".ctr"]
    else match S.proto with
      | .grpc => [".grpc.addr", ".grpc.bind_addr", ".grpc.dial_addr", ".grpc_client", ".grpc_client.ptr.src.next", ".grpc_server"]
      | .http => [".http.addr", ".http.bind_addr", ".http.dial_addr", ".http_client", ".http_client.ptr.src.next", ".http_server"]
      | .thrift => [".thrift.addr", ".thrift.bind_addr", ".thrift.dial_addr", ".thrift_client", ".thrift_client.ptr.src.next", ".thrift_server"]
  else [])

/-- The suffixes of the service's wrappers, and its places. -/
def Svc.given (S : Svc) : List Name := S.wraps.map (·.2) ++ S.places

theorem fixed_nodup (S : Svc) : S.fixedSuffixes.Nodup := by
  unfold Svc.fixedSuffixes
  cases S.back <;> cases S.rpc <;> cases S.proto <;> decide +kernel

/-- The fixed suffixes that are the next of something are the next of a fixed suffix. -/
theorem fixed_next (S : Svc) (s : Name) (h : s ++ ".ptr.src.next" ∈ S.fixedSuffixes) : s ∈ S.fixedSuffixes := by
  have key : ∀ l : List Name, (∀ t ∈ l, ∀ u : List Char, t.toList = u ++ ".ptr.src.next".toList → String.ofList u ∈ l) →
      s ++ ".ptr.src.next" ∈ l → s ∈ l := by
    intro l hl hm
    have := hl _ hm s.toList (by rw [String.toList_append])
    rwa [String.ofList_toList] at this
  refine key _ ?_ h
  have dec : ∀ l : List Name, (∀ t ∈ l, ".ptr.src.next".toList.isSuffixOf t.toList = true →
      String.ofList (t.toList.take (t.toList.length - 13)) ∈ l) →
      ∀ t ∈ l, ∀ u : List Char, t.toList = u ++ ".ptr.src.next".toList → String.ofList u ∈ l := by
    intro l hl t ht u e
    have := hl t ht (by rw [List.isSuffixOf_iff_suffix]; exact ⟨u, e.symm⟩)
    rwa [e, List.length_append, show ".ptr.src.next".toList.length = 13 from by decide, Nat.add_sub_cancel, List.take_left] at this
  apply dec
  unfold Svc.fixedSuffixes
  cases S.back <;> cases S.rpc <;> cases S.proto <;> decide +kernel

theorem append_inj_left {T a b : Name} (h : T ++ a = T ++ b) : a = b := by
  have := congrArg String.toList h
  rw [String.toList_append, String.toList_append] at this
  exact String.toList_inj.1 (List.append_cancel_left this)

theorem append_inj_right {T a b : Name} (h : a ++ T = b ++ T) : a = b := by
  have := congrArg String.toList h
  rw [String.toList_append, String.toList_append] at this
  exact String.toList_inj.1 (List.append_cancel_right this)

theorem withNext_perm : ∀ cs : List Name, (withNext cs).Perm (cs ++ cs.map nextOf)
  | [] => List.Perm.refl _
  | x :: cs => by
    rw [withNext_cons, List.map_cons, List.cons_append]
    refine List.Perm.cons _ (List.Perm.trans (List.Perm.cons _ (withNext_perm cs)) ?_)
    exact List.perm_middle.symm

theorem sides_perm : ∀ ws : List (Bool × Name), (ws.filter (·.1) ++ ws.filter (!·.1)).Perm ws
  | [] => List.Perm.refl _
  | (true, x) :: ws => by
    simp only [List.filter_cons, if_true, Bool.not_true, Bool.false_eq_true, if_false, List.cons_append]
    exact List.Perm.cons _ (sides_perm ws)
  | (false, x) :: ws => by
    simp only [List.filter_cons, if_true, Bool.not_false, Bool.false_eq_true, if_false]
    exact List.Perm.trans List.perm_middle (List.Perm.cons _ (sides_perm ws))

theorem shuffle (a b c d : List Name) (n : Name) (r p : List Name) : (a ++ [n] ++ (b ++ c) ++ d ++ r ++ p).Perm (a ++ [n] ++ r ++ (b ++ d ++ p) ++ c) := by
  rw [List.perm_iff_count]
  intro x
  simp only [List.count_append]
  omega

theorem rpcNames_eq (S : Svc) (hk : S.back = false) :
    rpcNames S = (match S.proto with
      | .grpc => [".grpc.addr", ".grpc.bind_addr", ".grpc.dial_addr", ".grpc_client", ".grpc_client.ptr.src.next", ".grpc_server"]
      | .http => [".http.addr", ".http.bind_addr", ".http.dial_addr", ".http_client", ".http_client.ptr.src.next", ".http_server"]
      | .thrift => [".thrift.addr", ".thrift.bind_addr", ".thrift.dial_addr", ".thrift_client", ".thrift_client.ptr.src.next", ".thrift_server"]).map
      (S.name ++ ·) := by
  unfold rpcNames Svc.addrN Svc.rpcClientN Svc.serverN
  simp only [hk, Bool.false_eq_true, if_false]
  unfold addrN rpcClientN serverN nextOf
  rw [bindName_addr, dialName_addr]
  cases S.proto <;> (rw [String.append_assoc]; rfl)

theorem rpcNames_back (S : Svc) (hk : S.back = true) :
    rpcNames S = [".addr", ".bind_addr", ".dial_addr", ".client", ".client.ptr.src.next", ".ctr"].map (S.name ++ ·) := by
  unfold rpcNames Svc.addrN Svc.rpcClientN Svc.serverN
  simp only [hk, if_true]
  unfold ctrAddrN clientN ctrN nextOf
  rw [bindName_ctr, dialName_ctr, String.append_assoc]
  rfl

theorem base_eq (T : Name) : baseNames T ++ [nextOf (clientN T)] =
    ["", ".handler", ".handler.visibility", ".handler.uniqueness_check", ".dst", ".src", ".client", ".client.ptr.src.next"].map (T ++ ·) := by
  unfold baseNames handlerN visN checkN dstN srcN clientN nextOf
  simp [String.append_assoc]

theorem back_eq (T : Name) : [T, dstN T, srcN T, ctrVisN T, ctrCheckN T] =
    ["", ".dst", ".src", ".ctr.visibility", ".ctr.uniqueness_check"].map (T ++ ·) := by
  unfold dstN srcN ctrVisN ctrCheckN
  simp [String.append_assoc]

/-- The names of a service, in another order. -/
theorem names_perm (S : Svc) (hb : S.back = true → S.wraps = []) :
    S.names.Perm ((S.fixedSuffixes ++ S.given.map ("." ++ ·) ++
      ((S.wraps.filter (·.1)).map fun w => "." ++ w.2 ++ ".ptr.src.next")).map (S.name ++ ·)) := by
  have hsub : ∀ l : List Name, l.map (subN S.name) = (l.map ("." ++ ·)).map (S.name ++ ·) := by
    intro l
    rw [List.map_map]
    refine List.map_congr_left fun x _ => ?_
    unfold subN
    rw [String.append_assoc]
    rfl
  cases hk : S.back with
  | true =>
    have e := hb hk
    unfold Svc.names Svc.coreNames Svc.given Svc.fixedSuffixes
    rw [if_pos hk, back_eq, rpcNames_back S hk, e, hsub, if_pos hk]
    simp only [List.map_nil, List.filter_nil, List.nil_append, List.append_nil]
    cases S.rpc <;> simp [hk]
  | false =>
    have hf : S.fixedSuffixes.map (S.name ++ ·) = baseNames S.name ++ [nextOf (clientN S.name)] ++ (if S.rpc then rpcNames S else []) := by
      unfold Svc.fixedSuffixes
      rw [List.map_append, base_eq]
      cases hr : S.rpc with
      | false => simp [hk]
      | true => rw [rpcNames_eq S hk]; simp [hk]
    rw [List.map_append, List.map_append, hf]
    unfold Svc.names Svc.coreNames
    rw [if_neg (by rw [hk]; decide)]
    unfold wrapNames
    have p1 := withNext_perm (clients S.name S.wraps)
    have p2 : ((clients S.name S.wraps) ++ servers S.name S.wraps).Perm (S.wraps.map fun w => subN S.name w.2) := by
      unfold clients servers
      rw [← List.map_append]
      exact (sides_perm S.wraps).map _
    have e3 : ((S.wraps.filter (·.1)).map fun w => "." ++ w.2 ++ ".ptr.src.next").map (S.name ++ ·) = (clients S.name S.wraps).map nextOf := by
      unfold clients
      rw [List.map_map, List.map_map]
      refine List.map_congr_left fun w _ => ?_
      unfold nextOf subN
      simp [String.append_assoc]
    have e4 : (S.given.map ("." ++ ·)).map (S.name ++ ·) = (S.wraps.map fun w => subN S.name w.2) ++ S.places.map (subN S.name) := by
      unfold Svc.given
      rw [← hsub, List.map_append, List.map_map]
      rfl
    rw [e3, e4]
    have q : (baseNames S.name ++ nextOf (clientN S.name) :: withNext (clients S.name S.wraps) ++ servers S.name S.wraps ++
        (if S.rpc then rpcNames S else []) ++ S.places.map (subN S.name)).Perm
        (baseNames S.name ++ [nextOf (clientN S.name)] ++ (clients S.name S.wraps ++ (clients S.name S.wraps).map nextOf) ++ servers S.name S.wraps ++
        (if S.rpc then rpcNames S else []) ++ S.places.map (subN S.name)) := by
      refine List.Perm.append_right _ (List.Perm.append_right _ (List.Perm.append_right _ ?_))
      rw [List.append_assoc]
      exact List.Perm.append_left _ (List.Perm.cons _ p1)
    refine q.trans ((shuffle _ _ _ _ _ _ _).trans ?_)
    refine List.Perm.append_right _ (List.Perm.append_left _ (List.Perm.append_right _ p2))

theorem nodup_map_of_inj {α β : Type} (f : α → β) (hf : ∀ a b, f a = f b → a = b) (l : List α) (h : l.Nodup) : (l.map f).Nodup := by
  unfold List.Nodup at *
  rw [List.pairwise_map]
  exact h.imp fun h e => h (hf _ _ e)

/-- C112's condition on the names that plugins make for a service, in terms of the names that it is given: if its wrappers' suffixes and its
places are different, are none of the suffixes that plugins use (which are different for each of gRPC, HTTP and Thrift), and do not end as the
names of pointers' aliases do, then all names that the wiring spec has for the service are different. -/
theorem C112_names {S : Svc} (hb : S.back = true → S.wraps = []) (h1 : S.given.Nodup)
    (h2 : ∀ x ∈ S.given, "." ++ x ∉ S.fixedSuffixes ∧ ¬ ".ptr.src.next".toList <:+ x.toList) : S.names.Nodup := by
  rw [(names_perm S hb).nodup_iff]
  refine nodup_map_of_inj _ (fun a b e => append_inj_left e) _ ?_
  have hc : ∀ w ∈ S.wraps.filter (·.1), w.2 ∈ S.given := by
    intro w hw
    unfold Svc.given
    exact List.mem_append_left _ (List.mem_map_of_mem (List.mem_filter.1 hw).1)
  have hn : (S.wraps.filter (·.1)).Pairwise fun w v => w.2 ≠ v.2 := by
    unfold Svc.given at h1
    have := (List.nodup_append.1 h1).1
    unfold List.Nodup at this
    rw [List.pairwise_map] at this
    exact this.sublist List.filter_sublist
  rw [List.nodup_append, List.nodup_append]
  refine ⟨⟨fixed_nodup S, nodup_map_of_inj _ (fun a b e => append_inj_left e) _ h1, ?_⟩, ?_, ?_⟩
  · rintro a ha b hb rfl
    obtain ⟨x, hx, rfl⟩ := List.mem_map.1 hb
    exact (h2 x hx).1 ha
  · unfold List.Nodup
    rw [List.pairwise_map]
    exact hn.imp fun h e => h (append_inj_left (append_inj_right e))
  · rintro a ha b hb rfl
    obtain ⟨w, hw, rfl⟩ := List.mem_map.1 hb
    rcases List.mem_append.1 ha with ha | ha
    · exact (h2 _ (hc w hw)).1 (fixed_next S _ ha)
    · obtain ⟨x, hx, e⟩ := List.mem_map.1 ha
      rw [String.append_assoc] at e
      have := append_inj_left e
      refine (h2 x hx).2 ⟨w.2.toList, ?_⟩
      rw [this, String.toList_append]

/-- A service with the wrappers of the repository's plugins, over Thrift, in a process, a container and a deployment. -/
example : (Svc.mk "cart_service" [] [] [(true, "client.ot"), (false, "server.ot"), (true, "client.cb"), (true, "clientpool"), (false, "server.hc"),
    (true, "client.govec"), (false, "server.govec"), (false, "server.delay"), (false, "server.latency")] true
    ["cart_proc", "cart_ctr", "docker"] [] false .thrift).names.Nodup := by
  refine C112_names (by simp) (by decide +kernel) ?_
  intro x hx
  rw [← List.isSuffixOf_iff_suffix]
  exact (by decide +kernel : ∀ x ∈ (Svc.mk "cart_service" [] [] [(true, "client.ot"), (false, "server.ot"), (true, "client.cb"), (true, "clientpool"),
    (false, "server.hc"), (true, "client.govec"), (false, "server.govec"), (false, "server.delay"), (false, "server.latency")] true
    ["cart_proc", "cart_ctr", "docker"] [] false .thrift).given, "." ++ x ∉ (Svc.mk "cart_service" [] [] [(true, "client.ot"), (false, "server.ot"),
      (true, "client.cb"), (true, "clientpool"), (false, "server.hc"), (true, "client.govec"), (false, "server.govec"), (false, "server.delay"),
      (false, "server.latency")] true ["cart_proc", "cart_ctr", "docker"] [] false .thrift).fixedSuffixes ∧
    ¬ ".ptr.src.next".toList.isSuffixOf x.toList = true) x hx

end Verif.Compile
