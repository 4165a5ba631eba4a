import Verif.Compile.Service
/-
What the wiring spec of an application holds.
-/
namespace Verif.Compile
set_option linter.unusedSimpArgs false
open Verif.Wiring (Name Spec Op Ptr Payload createPointer GoMap Def nextOf)

theorem fam_handler {T : Name} (h : Dotless T) : fam (handlerN T) = T.toList := by
  unfold handlerN
  exact fam_dot h ".handler" rfl

theorem dot_of_head {s : Name} (h : s.toList.head? = some '.') : '.' ∈ s.toList := by
  cases e : s.toList with
  | nil => rw [e] at h; cases h
  | cons c l => rw [e] at h; simp at h; simp [h]

theorem fam_names {S : Svc} (hd : Dotless S.name) : ∀ n ∈ S.names, fam n = S.name.toList := by
  have hh : ∀ s : Name, s.toList.head? = some '.' → fam (S.name ++ s) = S.name.toList := fun s hs => fam_dot hd s hs
  have hsub : ∀ x, fam (subN S.name x) = S.name.toList ∧ '.' ∈ (subN S.name x).toList := by
    intro x
    unfold subN
    exact ⟨fam_sub hd x, dot_mem ..⟩
  have hcl : fam (clientN S.name) = S.name.toList ∧ '.' ∈ (clientN S.name).toList := by
    unfold clientN
    exact ⟨hh _ rfl, dots_mem (dot_of_head rfl)⟩
  have hgc : fam S.rpcClientN = S.name.toList ∧ '.' ∈ (S.rpcClientN).toList := by
    unfold Svc.rpcClientN
    split
    · exact hcl
    · unfold rpcClientN
      exact ⟨hh _ (Proto.client_head _), dots_mem (Proto.client_dot _)⟩
  have hcore : ∀ n ∈ [S.name, dstN S.name, srcN S.name, ctrVisN S.name, ctrCheckN S.name], fam n = S.name.toList := by
    intro n h
    simp only [List.mem_cons, List.not_mem_nil, or_false] at h
    rcases h with rfl | rfl | rfl | rfl | rfl
    · exact fam_self hd
    · unfold dstN; exact hh _ rfl
    · unfold srcN; exact hh _ rfl
    · unfold ctrVisN; rw [String.append_assoc]; exact hh _ rfl
    · unfold ctrCheckN; rw [String.append_assoc]; exact hh _ rfl
  intro n hn
  unfold Svc.names Svc.coreNames at hn
  rw [List.mem_append, List.mem_append] at hn
  rcases hn with (hn | h) | h
  · split at hn
    · exact hcore n hn
    unfold wrapNames at hn
    simp only [List.mem_append, List.mem_cons] at hn
    rcases hn with (h | h | h) | h
    · simp only [baseNames, List.mem_cons, List.not_mem_nil, or_false] at h
      rcases h with rfl | rfl | rfl | rfl | rfl | rfl | rfl
      · exact fam_self hd
      · exact fam_handler hd
      · unfold visN; rw [String.append_assoc]; exact hh _ rfl
      · unfold checkN; rw [String.append_assoc]; exact hh _ rfl
      · unfold dstN; exact hh _ rfl
      · unfold srcN; exact hh _ rfl
      · exact hcl.1
    · subst h
      exact fam_next hcl.2 hcl.1
    · unfold withNext clients at h
      simp only [List.mem_flatMap, List.mem_map, List.mem_cons, List.not_mem_nil, or_false] at h
      obtain ⟨y, ⟨v, _, rfl⟩, rfl | rfl⟩ := h
      · exact (hsub _).1
      · exact fam_next (hsub _).2 (hsub _).1
    · unfold servers at h
      simp only [List.mem_map] at h
      obtain ⟨v, _, rfl⟩ := h
      exact (hsub _).1
  · split at h
    · simp only [rpcNames, List.mem_cons, List.not_mem_nil, or_false] at h
      rcases h with rfl | rfl | rfl | rfl | rfl | rfl
      · unfold Svc.addrN ctrAddrN addrN; split <;> exact hh _ (by first | rfl | exact Proto.addr_head _)
      · unfold Svc.addrN ctrAddrN addrN
        split
        · rw [bindName_ctr]; exact hh _ rfl
        · rw [bindName_addr]; exact hh _ (Proto.bind_head _)
      · unfold Svc.addrN ctrAddrN addrN
        split
        · rw [dialName_ctr]; exact hh _ rfl
        · rw [dialName_addr]; exact hh _ (Proto.dial_head _)
      · exact hgc.1
      · exact fam_next hgc.2 hgc.1
      · unfold Svc.serverN ctrN serverN; split <;> exact hh _ (by first | rfl | exact Proto.server_head _)
    · cases h
  · simp only [List.mem_map] at h
    obtain ⟨v, _, rfl⟩ := h
    exact (hsub _).1

/-- What the wiring spec holds about a service. -/
structure Holds (w : Wired) (S : Svc) : Prop where
  self : tab w.spec S.name = some (.node (.level 0) (some .ptr))
  src : tab w.spec (srcN S.name) = some (.alias (clientN S.name))
  base : S.back = false → Base S.name S.ctor S.args (tab w.spec)
  chain : S.back = false → Chain (tab w.spec) (nextOf (clientN S.name)) (clients S.name S.wraps) S.callee
  tower : S.back = false → Tower (tab w.spec) (dstN S.name) (servers S.name S.wraps)
  rpc : S.rpc = true → Rpc S (tab w.spec)
  enters : ∀ a x b, S.places = a ++ x :: b →
    tab w.spec (subN S.name x) = some (.node (.level (S.base + a.length + 1)) (some (.enter x (S.under a))))
  ptr : ∃ p, w.env.ptr S.name = some p ∧ p.srcHead = srcN S.name ∧ p.interfaceNode = S.iface ∧ p.dstModifiers.headD "" = S.under S.places

/-- What the wiring spec of an application holds. -/
structure Facts (A : App) (w : Wired) : Prop where
  services : ∀ S ∈ A.svcs, Holds w S
  spaces : ∀ x l, (x, l) ∈ A.spaces → tab w.spec x = some (.node (.level l) (some (.space l)))
  kids : ∀ x l, (x, l) ∈ A.spaces → ∀ c, c ∈ w.env.children x ↔ ∃ S ∈ A.svcs, ∃ a b, S.places = a ++ x :: b ∧ c = S.under a
  free : ∀ a, A.Free a → w.env.look a = none

theorem place_decls {T : Name} {l : Nat} {x T' : Name} : ∀ (pl : List Name) (j : Nat), .addTo l x T' ∈ placeDecls T j pl → x ∈ pl
  | [], _, h => by cases h
  | y :: pl, j, h => by
    simp only [placeDecls, List.mem_cons] at h
    rcases h with h | h
    · cases h; simp
    · exact List.mem_cons_of_mem _ (place_decls pl _ h)

theorem addTo_place {S : Svc} {l : Nat} {x T : Name} (h : .addTo l x T ∈ S.decls) : x ∈ S.places := by
  unfold Svc.decls at h
  rw [List.mem_append] at h
  rcases h with h | h
  · split at h
    · simp at h
    · simp only [List.mem_append, List.mem_cons, List.mem_map] at h
      rcases h with (h | ⟨v, _, h⟩) | h
      · cases h
      · unfold wrapDecl at h; split at h <;> cases h
      · split at h
        · simp at h
        · cases h
  · exact place_decls _ _ h

theorem tidy_of {A : App} {rank : Name → Nat} {ds : List Decl} (fit : A.Fits rank) (dec : A.Declared ds) :
    Tidy (A.spaces.map (·.1)) ds := by
  refine ⟨?_, ?_, ?_, ?_⟩
  · intro d hd T hT
    obtain ⟨S, hS, rfl⟩ := dec.nothingElse d hd T hT
    obtain ⟨h1, h2, h3⟩ := fit.own S hS
    refine ⟨h1, ?_⟩
    intro h
    obtain ⟨⟨x, l⟩, hm, e⟩ := List.mem_map.1 h
    exact h3 l (by simp only at e; rw [← e]; exact hm)
  · intro l x T hd
    obtain ⟨S, hS, rfl⟩ := dec.nothingElse _ hd T rfl
    have : Decl.addTo l x S.name ∈ S.decls := by
      rw [← dec.services S hS]
      exact List.mem_filter.2 ⟨hd, by simp [Decl.about]⟩
    obtain ⟨a, b, e⟩ := List.append_of_mem (addTo_place this)
    have := fit.homes S hS a x (b ++ S.ctx) (by simp [Svc.home, e])
    exact List.mem_map.2 ⟨_, this, rfl⟩
  · intro x l hd
    exact List.mem_map.2 ⟨_, (dec.spaces x l).2 hd, rfl⟩
  · intro x hx
    obtain ⟨⟨y, l⟩, hm, rfl⟩ := List.mem_map.1 hx
    exact fit.dotless _ _ hm

theorem facts_of {A : App} {rank : Name → Nat} {ds : List Decl} (fit : A.Fits rank) (dec : A.Declared ds) :
    Facts A (Wired.run ds) := by
  have td := tidy_of fit dec
  have hfam : ∀ S ∈ A.svcs, Placed S S.places (famOf S.name ds) := by
    intro S hS
    have := placed_all S (fit.own S hS).2.1 fun hk => (fit.backs S hS hk).1
    unfold famOf declsOf
    rw [dec.services S hS]
    exact this
  have hx : ∀ S ∈ A.svcs, S.name ∉ A.spaces.map (·.1) := by
    intro S hS h
    obtain ⟨⟨x, l⟩, hm, e⟩ := List.mem_map.1 h
    exact (fit.own S hS).2.2 l (by simp only at e; rw [← e]; exact hm)
  have hsim : ∀ S ∈ A.svcs, Sim S.name (Wired.run ds) (famOf S.name ds) := fun S hS =>
    run_sim td S.name (fit.own S hS).1 (hx S hS)
  have htab : ∀ S ∈ A.svcs, ∀ n ∈ S.names, tab (Wired.run ds).spec n = (famOf S.name ds).tab n := fun S hS n hn =>
    (hsim S hS).ss.eq n (fam_names (fit.own S hS).1 n hn)
  refine ⟨?_, ?_, ?_, ?_⟩
  · intro S hS
    have P := hfam S hS
    have ht := htab S hS
    have hc : ∀ n ∈ S.coreNames, n ∈ S.names := fun n hn => by
      unfold Svc.names; simp only [List.mem_append]; exact .inl (.inl hn)
    have hw : S.back = false → ∀ n ∈ wrapNames S.name S.wraps, n ∈ S.names := fun hk n hn =>
      hc n (by simp only [Svc.coreNames, hk, Bool.false_eq_true, if_false]; exact hn)
    refine ⟨(ht _ (hc _ (self_core S))).trans P.self, (ht _ (hc _ (src_core S))).trans P.src,
      fun hk => (P.base hk).same fun n hn => ht n (hw hk n (wrapNames_base hn)),
      fun hk => chain_same _ _ (P.chain hk) fun n hn => ht n (hw hk n (wrapNames_chain hn)),
      fun hk => tower_same _ _ (P.tower hk) fun n hn => ht n (hw hk n (wrapNames_servers hn)), ?_, ?_, ?_⟩
    · intro hr
      refine (P.rpc hr).same fun n hn => ht n ?_
      unfold Svc.names; simp only [List.mem_append, hr, if_true]; exact .inl (.inr hn)
    · intro a x b e
      rw [ht _ (by unfold Svc.names; simp only [List.mem_append]; exact .inr (by simp [e]))]
      exact P.enters a x b e
    · obtain ⟨p, e1, e2, e3, e4, e5⟩ := P.ptr
      refine ⟨p, ?_, e2, e3, e5⟩
      exact (hsim S hS).getPtr.trans e1
  · intro x l h
    obtain ⟨l', h1, h2⟩ := (run_spaces td (List.mem_map.2 ⟨_, h, rfl⟩)).2.1 l ((dec.spaces x l).1 h)
    rw [fit.level x l l' h ((dec.spaces x l').2 h1)]
    exact h2
  · intro x l h c
    have := run_kids td (List.mem_map.2 ⟨_, h, rfl⟩) c
    refine Iff.trans this ?_
    constructor
    · rintro ⟨T, hT⟩
      by_cases e : ∃ S ∈ A.svcs, S.name = T
      · obtain ⟨S, hS, rfl⟩ := e
        obtain ⟨a, b, h⟩ := ((hfam S hS).kids x c).1 hT
        exact ⟨S, hS, a, b, h⟩
      · have : declsOf T ds = [] := by
          unfold declsOf
          refine List.filter_eq_nil_iff.2 ?_
          intro d hd h'
          exact e (dec.nothingElse d hd T (by simpa using h'))
        rw [famOf, this] at hT
        cases hT
    · rintro ⟨S, hS, a, b, h⟩
      exact ⟨S.name, ((hfam S hS).kids x c).2 ⟨a, b, h⟩⟩
  · intro a ha
    refine look_none ?_
    by_cases e : ∃ S ∈ A.svcs, fam a = S.name.toList
    · obtain ⟨S, hS, e⟩ := e
      rw [(hsim S hS).ss.eq a e]
      cases e' : (famOf S.name ds).tab a with
      | none => rfl
      | some v => exact absurd ((hfam S hS).names a (by simp [e'])) (ha.1 S hS)
    · refine run_absent td ?_ ?_
      · intro d hd T hT h'
        obtain ⟨S, hS, rfl⟩ := dec.nothingElse d hd T hT
        exact e ⟨S, hS, h'⟩
      · intro h
        obtain ⟨⟨x, l⟩, hm, rfl⟩ := List.mem_map.1 h
        exact ha.2 _ _ hm rfl

end Verif.Compile
