import Verif.Compile.Plan
import Verif.Compile.Queue
/-
Which nodes a compilation has built when it ends.
-/
namespace Verif.Compile
set_option linter.unusedSimpArgs false
set_option linter.unusedSectionVars false
open Verif.Wiring (Name Ptr nextOf)

/-- The nodes of each namespace, with the names under which they are defined. -/
inductive Item (Act : Svc → Prop) (Called : Space → Svc → Prop) (H : Svc → Tree) : Space → Name → Tree → Prop where
  | handler {S : Svc} : Act S → S.back = false → Item Act Called H S.home (handlerN S.name) (H S)
  | serverWrap {S : Svc} {l1 l2 : List Name} {x : Name} : Act S → S.back = false → servers S.name S.wraps = l1 ++ x :: l2 →
      Item Act Called H S.home x (wrapOut (l1 ++ [x]) (H S))
  | server {S : Svc} : Act S → S.rpc = true → Item Act Called H S.home S.serverN (S.servedTree (H S))
  | client {S : Svc} {sp : Space} : Called sp S → S.back = false → Item Act Called H sp (clientN S.name) (S.clientTree (H S))
  | clientWrap {S : Svc} {sp : Space} {l1 l2 : List Name} {x : Name} : Called sp S → S.back = false → clients S.name S.wraps = l1 ++ x :: l2 →
      Item Act Called H sp x (wrapIn (x :: l2) (S.calledTree (H S)))
  | grpcClient {S : Svc} {sp : Space} : Called sp S → S.rpc = true →
      Item Act Called H sp S.rpcClientN (.grpcClient S.rpcClientN S.addrN)
  | visibility {S : Svc} : Act S → S.back = false → Item Act Called H [] (visN S.name) (.visibility (visN S.name))
  | addr {S : Svc} : Act S → S.rpc = true → Item Act Called H [] S.addrN (.addr S.addrN)
  | bind {S : Svc} : Act S → S.rpc = true → Item Act Called H [] (bindName S.addrN) (.bind (bindName S.addrN))
  | dial {S : Svc} {sp : Space} : Called sp S → S.rpc = true →
      Item Act Called H [] (dialName S.addrN) (.dial (dialName S.addrN))
  | space {S : Svc} {a b : Space} {x : Name} : Act S → S.home = a ++ x :: b → Item Act Called H b x (.space x)

theorem chain_mem {g : Name → Option Ent} {i x : Name} : ∀ (cs : List Name) (st : Name), Chain g st cs i → x ∈ cs →
    g x = some (.node (.level 0) (some (.wrap (nextOf x))))
  | [], _, _, h => by cases h
  | y :: cs, st, h, hx => by
    rcases List.mem_cons.1 hx with rfl | hx
    · exact h.2.1
    · exact chain_mem cs _ h.2.2 hx

theorem tower_mem {g : Name → Option Ent} {x : Name} : ∀ (ss : List Name) (b : Name), Tower g b ss → x ∈ ss →
    ∃ b, g x = some (.node (.level 0) (some (.wrap b)))
  | [], _, _, h => by cases h
  | y :: ss, b, h, hx => by
    rcases List.mem_cons.1 hx with rfl | hx
    · exact ⟨_, h.1⟩
    · exact tower_mem ss _ h.2 hx

theorem wrapOut_snoc (l : List Name) (x : Name) (t : Tree) : wrapOut (l ++ [x]) t = .wrap x (wrapOut l t) := by
  simp [wrapOut]

section
variable {A : App} {rank : Name → Nat} {w : Wired} {Act : Svc → Prop} {Called : Space → Svc → Prop}

local notation "L" => Lawful w Act Called
local notation "E" => Wired.env w

variable (fit : A.Fits rank) (F : Facts A w) (C : Closed A Act Called) {H : Svc → Tree}
  (hH : ∀ S, Act S → S.back = false → H S = .handler S.name (S.args.map (A.argTree H)) ∧ ∃ d, Den w.env (Lawful w Act Called) d S.home (handlerN S.name) (H S))
include fit F C hH

theorem isServ {S : Svc} (hS : Act S) (hk : S.back = false) : (H S).isService = true := by rw [(hH S hS hk).1]; rfl

theorem owns_of {sp : Space} {n : Name} {t : Tree} {ty : Ty} {k : Kind} (hd : ∃ d, Den E L d sp n t)
    (ht : tab w.spec n = some (.node ty (some k))) (ha : Env.accepts E sp ty = true) (hk : k.proxy = false) : Owns E L sp n t := by
  obtain ⟨d, hd⟩ := hd
  exact ⟨d, ty, k, hd, look_node ht, ha, hk⟩

theorem front_handler {S : Svc} (hS : Act S) (hk : S.back = false) :
    ∃ d, Den E L d S.home (handlerN S.name) (H S) ∧ (H S).isService = true :=
  let ⟨d, hd⟩ := (hH S hS hk).2
  ⟨d, hd, isServ fit F C hH hS hk⟩

theorem local_handler {S : Svc} (hS : Act S) (hr : S.rpc = false) :
    ∃ d, Den E L d S.home (handlerN S.name) (H S) ∧ (H S).isService = true :=
  front_handler fit F C hH hS (front_of fit F C hS hr)

theorem den_served {S : Svc} (hS : Act S) : ∃ d, Den E L d S.home S.server (S.servedTree (H S)) :=
  den_server fit F C hS (front_handler fit F C hH hS)

omit fit F C hH in
theorem binder_proxy (S : Svc) : S.binder.proxy = false := by unfold Svc.binder; split <;> rfl

theorem item_owns {sp : Space} {n : Name} {t : Tree} (h : Item Act Called H sp n t) : Owns E L sp n t := by
  cases h with
  | handler hS hk => exact owns_of fit F C hH (hH _ hS hk).2 ((F.services _ (C.act _ hS)).base hk).handler (acc_home fit F C hS hk) rfl
  | @serverWrap S l1 l2 x hS hk e =>
    obtain ⟨b, hb⟩ := tower_mem _ _ ((F.services S (C.act S hS)).tower hk) (x := n) (by simp [e])
    obtain ⟨d, hd⟩ := (hH S hS hk).2
    obtain ⟨d1, h1⟩ := den_dst fit F C hS hk hd (isServ fit F C hH hS hk)
    have := (den_tower fit F C hS hk _ _ _ d1 ((F.services S (C.act S hS)).tower hk) (fun _ h => h) h1 (isServ fit F C hH hS hk) (l1 ++ [n]) l2
      (by simp [e])).1
    refine owns_of fit F C hH ?_ hb (acc_home fit F C hS hk) rfl
    simpa using this
  | @server S hS hr =>
    refine owns_of fit F C hH ?_ ((F.services S (C.act S hS)).rpc hr).server (acc_base fit F C hS) (binder_proxy S)
    have := den_served fit F C hH hS
    unfold Svc.server at this
    rwa [if_pos hr] at this
  | @client S _ hc hk =>
    have hS := (C.called _ _ hc).1
    exact owns_of fit F C hH ((den_client fit F C hc (local_handler fit F C hH hS)).2 hk).1 ((F.services S (C.act S hS)).base hk).client
      (acc_called fit F C hc) rfl
  | @clientWrap S _ l1 l2 x hc hk e =>
    have hS := (C.called _ _ hc).1
    exact owns_of fit F C hH (((den_client fit F C hc (local_handler fit F C hH hS)).2 hk).2 l1 n l2 e)
      (chain_mem _ _ ((F.services S (C.act S hS)).chain hk) (by simp [e])) (acc_called fit F C hc) rfl
  | @grpcClient S _ hc hr =>
    have hS := (C.called _ _ hc).1
    have := (den_callee fit F C hc (local_handler fit F C hH hS)).1
    unfold Svc.callee Svc.calledTree at this
    rw [if_pos hr, if_pos hr] at this
    exact owns_of fit F C hH this ((F.services S (C.act S hS)).rpc hr).client (acc_called fit F C hc) rfl
  | visibility hS hk => exact owns_of fit F C hH (den_vis fit F C hS hk (.inl rfl)) ((F.services _ (C.act _ hS)).base hk).vis rfl rfl
  | addr hS hr => exact owns_of fit F C hH (den_addr fit F C hS hr (.inl rfl)) ((F.services _ (C.act _ hS)).rpc hr).addr rfl rfl
  | @bind S hS hr =>
    exact owns_of fit F C hH (den_bind fit F C hS hr (a := S.home) (sp := []) (by simp)) ((F.services _ (C.act _ hS)).rpc hr).bind rfl rfl
  | @dial S sp' hc hr =>
    exact owns_of fit F C hH (den_dial fit F C (a := sp') (sp := []) (by simpa using hc) hr)
      ((F.services _ (C.act _ (C.called _ _ hc).1)).rpc hr).dial rfl rfl
  | @space S a b x hS e =>
    refine owns_of fit F C hH (den_space fit F C hS e) (F.spaces _ _ (fit.homes S (C.act S hS) a n sp e)) ?_ rfl
    rw [acc_eq fit F C hS (a := a ++ [n]) (sp := sp) (by simp [e])]
    simp [Nat.add_assoc]

/-- Each namespace's own nodes are among these. -/
theorem owns_item {sp : Space} {n : Name} {t : Tree} (h : Owns E L sp n t) : ∃ n0, Item Act Called H sp n0 t := by
  obtain ⟨d, ty, k, hd, hl, ha, hkp⟩ := h
  have hr := hd.legal.2 _ _ hl
  have fin : ∀ {t'}, (∃ d', Den E L d' sp n t') → (∃ n0, Item Act Called H sp n0 t') → ∃ n0, Item Act Called H sp n0 t := by
    rintro t' ⟨d', h'⟩ h
    rw [(hd.det h').2]; exact h
  have den : ∀ {t'}, Item Act Called H sp n t' → ∃ n0, Item Act Called H sp n0 t := by
    intro t' h
    obtain ⟨d', _, _, h', _⟩ := item_owns fit F C hH h
    exact fin ⟨d', h'⟩ ⟨_, h⟩
  have app : ∀ {k'}, tab w.spec n = some (.node .app (some k')) → sp = [] := by
    intro k' e
    rw [look_node e] at hl
    cases hl
    cases sp with
    | nil => rfl
    | cons => cases ha
  cases k with
  | handler svc ctor args =>
    obtain ⟨S, hS, hk, rfl, rfl, rfl⟩ := hr
    exact den (.handler hS hk)
  | client next =>
    obtain ⟨S, hc, hk, rfl⟩ := hr
    exact den (.client hc hk)
  | wrap next =>
    rcases hr with ⟨S, hc, hk, hm⟩ | ⟨S, hS, hk, hm, rfl⟩
    · obtain ⟨l1, l2, e⟩ := List.append_of_mem hm
      exact den (.clientWrap hc hk e)
    · obtain ⟨l1, l2, e⟩ := List.append_of_mem hm
      exact den (.serverWrap hS hk e)
  | visibility =>
    obtain ⟨S, hS, hk, rfl⟩ := hr
    have e := app ((F.services S (C.act S hS)).base hk).vis
    subst e
    exact den (.visibility hS hk)
  | check md target =>
    obtain ⟨S, hS, hk, rfl, rfl⟩ := hr
    obtain ⟨d', h'⟩ := (hH S hS hk).2
    exact fin (den_check fit F C hS hk h' (isServ fit F C hH hS hk)) ⟨_, .handler hS hk⟩
  | ptr =>
    obtain ⟨S, hc, rfl⟩ := hr
    have hS := (C.called _ _ hc).1
    refine fin (den_client fit F C hc (local_handler fit F C hH hS)).1.1 ?_
    cases hk : S.back with
    | false => exact ⟨_, .client hc hk⟩
    | true =>
      have hrpc := (fit.backs S (C.act S hS) hk).1
      have e : S.clientTree (H S) = .grpcClient S.rpcClientN S.addrN := by simp [Svc.clientTree, Svc.calledTree, hk, hrpc]
      rw [e]
      exact ⟨_, .grpcClient hc hrpc⟩
  | addr =>
    obtain ⟨S, hS, hrpc, rfl⟩ := hr
    have e := app ((F.services S (C.act S hS)).rpc hrpc).addr
    subst e
    exact den (.addr hS hrpc)
  | bind =>
    obtain ⟨S, a, hS, hrpc, rfl, _⟩ := hr
    have e := app ((F.services S (C.act S hS)).rpc hrpc).bind
    subst e
    exact den (.bind hS hrpc)
  | dial =>
    obtain ⟨S, a, hc, hrpc, rfl⟩ := hr
    have e := app ((F.services S (C.act S (C.called _ _ hc).1)).rpc hrpc).dial
    subst e
    exact den (.dial hc hrpc)
  | grpcClient next =>
    obtain ⟨S, hc, hrpc, rfl⟩ := hr
    exact den (.grpcClient hc hrpc)
  | grpcServer next addr =>
    obtain ⟨S, hS, _, hrpc, rfl, rfl⟩ := hr
    exact den (.server hS hrpc)
  | container addr =>
    obtain ⟨S, hS, hk, hrpc, rfl, h⟩ := hr
    have hl' := look_node ((F.services S (C.act S hS)).rpc hrpc).server
    rw [hl', binder_back hk] at hl
    have hb : S.base = 2 := by simp [Svc.base, hk]
    rw [hb] at hl
    cases hl
    rcases h with rfl | h
    · exact den (.server hS hrpc)
    · rw [h] at ha; cases ha
  | enter x next => cases hkp
  | space l =>
    rcases hr with h | ⟨S, a, hS, e⟩
    · cases h
    · exact den (.space hS e)

/-- A node's name is the name under which it is defined, except for services. -/
theorem item_name {sp : Space} {n : Name} {t : Tree} (h : Item Act Called H sp n t) :
    t.name = n ∨ ∃ S, Act S ∧ S.back = false ∧ n = handlerN S.name ∧ t = H S ∧ t.name = S.name ∧ sp = S.home := by
  cases h with
  | handler hS hk => exact .inr ⟨_, hS, hk, rfl, rfl, by rw [(hH _ hS hk).1]; rfl, rfl⟩
  | serverWrap hS hk e => rw [wrapOut_snoc]; exact .inl rfl
  | server hS hr => unfold Svc.servedTree; rw [if_pos hr]; split <;> exact .inl rfl
  | client hc hk => unfold Svc.clientTree; rw [if_neg (by simp [hk])]; exact .inl rfl
  | clientWrap hc hk e => exact .inl rfl
  | grpcClient hc hr => exact .inl rfl
  | visibility hS hk => exact .inl rfl
  | addr hS hr => exact .inl rfl
  | bind hS hr => exact .inl rfl
  | dial hc hr => exact .inl rfl
  | space hS e => exact .inl rfl

/-- The name of a service is not the name of another node. -/
theorem item_not_svc {sp : Space} {S : Svc} (hS : Act S) {t : Tree} (h : Item Act Called H sp S.name t) : False := by
  obtain ⟨d, ty, k, hd, hl, ha, hk⟩ := item_owns fit F C hH h
  have hl' := hl
  rw [look_node (F.services S (C.act S hS)).self] at hl
  cases hl
  generalize e : S.name = n at *
  have bad : ∀ {ty : Ty} {k : Kind}, tab w.spec n = some (.node ty (some k)) → k = .ptr := by
    intro ty k h'
    rw [look_node h'] at hl'
    cases hl'; rfl
  cases h with
  | handler hS hk => cases bad ((F.services _ (C.act _ hS)).base hk).handler
  | @serverWrap S l1 l2 x hS hk e' =>
    obtain ⟨b, hb⟩ := tower_mem _ _ ((F.services S (C.act S hS)).tower hk) (x := n) (by simp [e'])
    cases bad hb
  | @server S hS hr =>
    have h := bad ((F.services S (C.act S hS)).rpc hr).server
    unfold Svc.binder at h
    split at h <;> cases h
  | client hc hk => cases bad ((F.services _ (C.act _ (C.called _ _ hc).1)).base hk).client
  | clientWrap hc hk e' => cases bad (chain_mem _ _ ((F.services _ (C.act _ (C.called _ _ hc).1)).chain hk) (by simp [e']))
  | grpcClient hc hr => cases bad ((F.services _ (C.act _ (C.called _ _ hc).1)).rpc hr).client
  | visibility hS hk => cases bad ((F.services _ (C.act _ hS)).base hk).vis
  | addr hS hr => cases bad ((F.services _ (C.act _ hS)).rpc hr).addr
  | bind hS hr => cases bad ((F.services _ (C.act _ hS)).rpc hr).bind
  | dial hc hr => cases bad ((F.services _ (C.act _ (C.called _ _ hc).1)).rpc hr).dial
  | @space S a b x hS e' => cases bad (F.spaces _ _ (fit.homes S (C.act S hS) a n sp e'))

/-- In a namespace, nodes with the same name are the same. -/
theorem item_inj {sp : Space} {n n' : Name} {t t' : Tree} (h : Item Act Called H sp n t) (h' : Item Act Called H sp n' t')
    (e : t.name = t'.name) : t = t' := by
  obtain ⟨d, _, _, hd, _⟩ := item_owns fit F C hH h
  obtain ⟨d', _, _, hd', _⟩ := item_owns fit F C hH h'
  rcases item_name fit F C hH h with e1 | ⟨S, hS, _, e1, e2, e3, _⟩ <;> rcases item_name fit F C hH h' with e1' | ⟨S', hS', _, e1', e2', e3', _⟩
  · rw [e1, e1'] at e
    subst e
    exact (hd.det hd').2
  · rw [e1, e3'] at e
    subst e
    exact (item_not_svc fit F C hH hS' h).elim
  · rw [e1', e3] at e
    subst e
    exact (item_not_svc fit F C hH hS h').elim
  · rw [e2, e2', fit.one S (C.act S hS) S' (C.act S' hS') (e3.symm.trans (e.trans e3'))]

end

end Verif.Compile
