import Verif.Compile.Whole
/-
Everything that has to be built is built when a compilation ends, and reported to the right namespace.
-/
namespace Verif.Compile
set_option linter.unusedSimpArgs false
set_option linter.unusedSectionVars false
open Verif.Wiring (Name Ptr nextOf)

theorem reach_head {env : Env} {Legal : Space → Name → Prop} {p q r : Space} {n m k : Name} (h : Sub env Legal p n q m)
    (hr : Reach env Legal q m r k) : Reach env Legal p n r k := by
  induction hr with
  | refl => exact .step .refl h
  | step _ hs ih => exact .step ih hs

theorem reach_trans {env : Env} {Legal : Space → Name → Prop} {p q r : Space} {n m k : Name} (h : Reach env Legal p n q m)
    (hr : Reach env Legal q m r k) : Reach env Legal p n r k := by
  induction hr with
  | refl => exact h
  | step _ hs ih => exact .step ih hs

theorem den_ctr {env : Env} {Legal : Space → Name → Prop} {h : Nat} {sp : Space} {n : Name} {t : Tree} (d : Den env Legal h sp n t) :
    ∀ {ty : Ty} {a : Name}, env.look n = some (n, ty, some (.container a)) → t.name = n := by
  induction h generalizing sp with
  | zero => exact absurd d.height (by omega)
  | succ h ih =>
    intro ty a hl
    cases d with
    | alias _ hl' hne _ =>
      rw [hl] at hl'
      cases hl'
      exact absurd rfl hne
    | climb _ _ _ d => exact ih d hl
    | built _ hl' _ d =>
      rw [hl] at hl'
      cases hl'
      cases d
      rfl

section
variable {A : App} {rank : Name → Nat} {w : Wired} {Act : Svc → Prop} {Called : Space → Svc → Prop}

local notation "L" => Lawful w Act Called
local notation "E" => Wired.env w

variable (fit : A.Fits rank) (F : Facts A w) (C : Closed A Act Called) {H : Svc → Tree}
  (hH : ∀ S, Act S → S.back = false → H S = .handler S.name (S.args.map (A.argTree H)) ∧
    ∃ d, Den w.env (Lawful w Act Called) d S.home (handlerN S.name) (H S))
include fit F C hH

/-- What a namespace does not accept, other than ways into namespaces. -/
theorem refused {sp : Space} {n : Name} {t : Tree} {d : Nat} {ty : Ty} {k : Kind} (hd : Den E L d sp n t)
    (hl : w.env.look n = some (n, ty, some k)) (ha : Env.accepts E sp ty = false) (hkq : k.quiet = false) :
    ty = .app ∧ t.name = n ∧ ((∃ S, Act S ∧ S.back = false ∧ n = visN S.name ∧ t = .visibility n) ∨ (∃ S, Act S ∧ S.rpc = true ∧ n = S.addrN ∧ t = .addr n) ∨
      (∃ S a, Act S ∧ S.rpc = true ∧ n = bindName S.addrN ∧ t = .bind n ∧ S.home = a ++ sp) ∨
      ∃ S a, Called (a ++ sp) S ∧ S.rpc = true ∧ n = dialName S.addrN ∧ t = .dial n) := by
  have hr := hd.legal.2 _ _ hl
  have bad : ∀ {k' : Kind}, tab w.spec n = some (.node (.level 0) (some k')) → Env.accepts E sp (.level 0) = true → False := by
    intro k' e h
    rw [look_node e] at hl
    cases hl
    rw [h] at ha; cases ha
  have app : ∀ {k' : Kind}, tab w.spec n = some (.node .app (some k')) → ty = .app := by
    intro k' e
    rw [look_node e] at hl
    cases hl; rfl
  cases k with
  | handler svc ctor args =>
    obtain ⟨S, hS, hk, rfl, rfl, rfl⟩ := hr
    exact (bad ((F.services S (C.act S hS)).base hk).handler (acc_home fit F C hS hk)).elim
  | client next =>
    obtain ⟨S, hc, hk, rfl⟩ := hr
    exact (bad ((F.services S (C.act S (C.called _ _ hc).1)).base hk).client (acc_called fit F C hc)).elim
  | wrap next =>
    rcases hr with ⟨S, hc, hk, hm⟩ | ⟨S, hS, hk, hm, rfl⟩
    · exact (bad (chain_mem _ _ ((F.services S (C.act S (C.called _ _ hc).1)).chain hk) hm) (acc_called fit F C hc)).elim
    · obtain ⟨b, hb⟩ := tower_mem _ _ ((F.services S (C.act S hS)).tower hk) hm
      exact (bad hb (acc_home fit F C hS hk)).elim
  | visibility =>
    obtain ⟨S, hS, hk, rfl⟩ := hr
    obtain ⟨_, h'⟩ := den_vis fit F C hS hk hd.legal.1
    have e := (hd.det h').2
    exact ⟨app ((F.services S (C.act S hS)).base hk).vis, by rw [e]; rfl, .inl ⟨S, hS, hk, rfl, e⟩⟩
  | check md target =>
    obtain ⟨S, hS, hk, rfl, rfl⟩ := hr
    exact (bad ((F.services S (C.act S hS)).base hk).check (acc_home fit F C hS hk)).elim
  | ptr =>
    obtain ⟨S, hc, rfl⟩ := hr
    exact (bad (F.services S (C.act S (C.called _ _ hc).1)).self (acc_called fit F C hc)).elim
  | addr =>
    obtain ⟨S, hS, hrpc, rfl⟩ := hr
    obtain ⟨_, h'⟩ := den_addr fit F C hS hrpc hd.legal.1
    have e := (hd.det h').2
    exact ⟨app ((F.services S (C.act S hS)).rpc hrpc).addr, by rw [e]; rfl, .inr (.inl ⟨S, hS, hrpc, rfl, e⟩)⟩
  | bind =>
    obtain ⟨S, a, hS, hrpc, rfl, eh⟩ := hr
    obtain ⟨_, h'⟩ := den_bind fit F C hS hrpc eh
    have e := (hd.det h').2
    exact ⟨app ((F.services S (C.act S hS)).rpc hrpc).bind, by rw [e]; rfl, .inr (.inr (.inl ⟨S, a, hS, hrpc, rfl, e, eh⟩))⟩
  | dial =>
    obtain ⟨S, a, hc, hrpc, rfl⟩ := hr
    obtain ⟨_, h'⟩ := den_dial fit F C hc hrpc
    have e := (hd.det h').2
    exact ⟨app ((F.services S (C.act S (C.called _ _ hc).1)).rpc hrpc).dial, by rw [e]; rfl, .inr (.inr (.inr ⟨S, a, hc, hrpc, rfl, e⟩))⟩
  | grpcClient next =>
    obtain ⟨S, hc, hrpc, rfl⟩ := hr
    exact (bad ((F.services S (C.act S (C.called _ _ hc).1)).rpc hrpc).client (acc_called fit F C hc)).elim
  | grpcServer next addr =>
    obtain ⟨S, hS, hk, hrpc, rfl, rfl⟩ := hr
    have h := ((F.services S (C.act S hS)).rpc hrpc).server
    rw [base_zero hk] at h
    exact (bad h (acc_home fit F C hS hk)).elim
  | container addr => cases hkq
  | enter x next => cases hkq
  | space l =>
    rcases hr with h | ⟨S, a, hS, e⟩
    · cases h
    · have h1 := look_space fit F C hS e
      rw [h1] at hl
      cases hl
      rw [acc_eq fit F C hS (a := a ++ [n]) (sp := sp) (by simp [e])] at ha
      simp [Nat.add_assoc] at ha

/-- No node of a namespace has the name of something that comes from outside. -/
theorem item_app {sp : Space} {n m : Name} {t : Tree} {k : Kind} (h : Item Act Called H sp n t) (hl : w.env.look m = some (m, .app, some k))
    (ha : Env.accepts E sp .app = false) (e : t.name = m) : False := by
  rcases item_name fit F C hH h with e1 | ⟨S, hS, _, _, _, e3, _⟩
  · obtain ⟨d, ty, k', _, hl', ha', _⟩ := item_owns fit F C hH h
    rw [← e1, e, hl] at hl'
    cases hl'
    rw [ha] at ha'; cases ha'
  · rw [e3] at e
    subst e
    rw [look_node (F.services S (C.act S hS)).self] at hl
    cases hl

/-- The way into a service's namespaces leads to its server. -/
theorem entered {S : Svc} (hS : Act S) {a b : List Name} {x : Name} (e : S.places = a ++ x :: b) {t : Tree} : ∀ (sp : Space) (d : Nat),
    Den E L d sp (subN S.name x) t → t = S.servedTree (H S) := by
  have hl := look_node ((F.services S (C.act S hS)).enters a x b e)
  intro sp
  induction sp with
  | nil =>
    intro d hd
    cases hd with
    | alias _ h hne _ => rw [hl] at h; cases h; exact absurd rfl hne
    | built _ h _ hb =>
      rw [hl] at h; cases h
      cases hb with
      | enter hx _ hds _ hdn =>
        rcases hds.legal.2 _ _ hx with h | ⟨S', a', hS', e'⟩
        · cases h
        · have e2 : [] = b ++ S.ctx := fit.nested S' (C.act S' hS') S (C.act S hS) a' x [] a _ e' (by simp [Svc.home, e])
          obtain ⟨_, h1⟩ := den_served fit F C hH hS
          obtain ⟨_, h2⟩ := den_under fit F C hS h1 a (x :: b) e
          rw [List.cons_append, ← e2] at h2
          exact (hdn.det h2).2
  | cons y r ih =>
    intro d hd
    cases hd with
    | alias _ h hne _ => rw [hl] at h; cases h; exact absurd rfl hne
    | climb _ h _ hd' => exact ih _ hd'
    | built _ h _ hb =>
      rw [hl] at h; cases h
      cases hb with
      | enter hx _ hds _ hdn =>
        rcases hds.legal.2 _ _ hx with h | ⟨S', a', hS', e'⟩
        · cases h
        · have e2 : y :: r = b ++ S.ctx := fit.nested S' (C.act S' hS') S (C.act S hS) a' x (y :: r) a _ e' (by simp [Svc.home, e])
          obtain ⟨_, h1⟩ := den_served fit F C hH hS
          obtain ⟨_, h2⟩ := den_under fit F C hS h1 a (x :: b) e
          rw [List.cons_append, ← e2] at h2
          exact (hdn.det h2).2

theorem tree_names {S : Svc} (hS : Act S) :
    (S.rpc = true ∧ (S.servedTree (H S)).name = S.serverN) ∨
    (S.rpc = false ∧ servers S.name S.wraps = [] ∧ (S.servedTree (H S)).name = S.name ∧ S.servedTree (H S) = H S) ∨
    (S.rpc = false ∧ ∃ l x, servers S.name S.wraps = l ++ [x] ∧ (S.servedTree (H S)).name = x) := by
  unfold Svc.servedTree
  cases hr : S.rpc with
  | true => refine .inl ⟨rfl, ?_⟩; simp only [if_true]; split <;> rfl
  | false =>
    have hk := front_of fit F C hS hr
    rw [if_neg (by simp [hk])]
    rcases List.eq_nil_or_concat (servers S.name S.wraps) with e | ⟨l, x, e⟩
    · refine .inr (.inl ⟨rfl, e, ?_, ?_⟩)
      · rw [e]; simp only [wrapOut, List.foldl_nil]; rw [(hH S hS hk).1]; rfl
      · rw [e]; rfl
    · rw [List.concat_eq_append] at e
      refine .inr (.inr ⟨rfl, l, x, e, ?_⟩)
      rw [e]
      simp only [Bool.false_eq_true, if_false, wrapOut_snoc]
      rfl

/-- A node with the name of a service's server is in the service's namespace. -/
theorem served_home {S : Svc} (hS : Act S) {sp : Space} {n : Name} {t : Tree} (h : Item Act Called H sp n t)
    (e : (S.servedTree (H S)).name = t.name) : sp = S.home := by
  obtain ⟨d, ty, k, hd, hl, ha, _⟩ := item_owns fit F C hH h
  have hr := hd.legal.2 _ _ hl
  have mem := C.act S hS
  rcases tree_names fit F C hH hS with ⟨hrpc, e1⟩ | ⟨hrpc, e0, e1, _⟩ | ⟨hrpc, l, x, e0, e1⟩
  · rw [e1] at e
    rcases item_name fit F C hH h with e2 | ⟨S', hS', _, _, _, e2, _⟩
    · rw [e2] at e
      subst e
      rw [look_node ((F.services S mem).rpc hrpc).server] at hl
      have hm : ∀ {V : Svc}, V.rpc = true → V.serverN ∈ V.names := by
        intro V hv
        unfold Svc.names; simp [hv, rpcNames]
      cases hk : S.back with
      | false =>
        rw [binder_front hk] at hl
        cases hl
        obtain ⟨S', hS', _, _, e3, e4⟩ := hr
        rw [e4, names_one fit F C mem (C.act S' hS') (hm hrpc) (e3 ▸ hm (by assumption))]
      | true =>
        have hb : S.base = 2 := by simp [Svc.base, hk]
        rw [binder_back hk, hb] at hl
        cases hl
        obtain ⟨S', hS', _, _, e3, e4⟩ := hr
        rcases e4 with e4 | e4
        · rw [e4, names_one fit F C mem (C.act S' hS') (hm hrpc) (e3 ▸ hm (by assumption))]
        · rw [e4] at ha; cases ha
    · rw [e2] at e
      have h1 := look_node ((F.services S mem).rpc hrpc).server
      rw [e, look_node (F.services S' (C.act S' hS')).self] at h1
      unfold Svc.binder Svc.base at h1
      split at h1 <;> simp at h1
  · rw [e1] at e
    rcases item_name fit F C hH h with e2 | ⟨S', hS', _, _, _, e2, e3⟩
    · rw [e2] at e
      subst e
      exact (item_not_svc fit F C hH hS h).elim
    · rw [e3, fit.one S mem S' (C.act S' hS') (e.trans e2)]
  · rw [e1] at e
    have hx : x ∈ servers S.name S.wraps := by simp [e0]
    have hk := front_of fit F C hS hrpc
    obtain ⟨b, hb⟩ := tower_mem _ _ ((F.services S mem).tower hk) hx
    have hn : ∀ {V : Svc} {y : Name}, V.back = false → y ∈ servers V.name V.wraps → y ∈ V.names := by
      intro V y hv hy
      unfold Svc.names Svc.coreNames; rw [if_neg (by simp [hv])]
      simp only [List.mem_append]; exact .inl (.inl (wrapNames_servers hy))
    have hn' : ∀ {V : Svc} {y : Name}, V.back = false → y ∈ clients V.name V.wraps → y ∈ V.names := by
      intro V y hv hy
      unfold Svc.names Svc.coreNames; rw [if_neg (by simp [hv])]
      simp only [List.mem_append]
      refine .inl (.inl (wrapNames_chain (List.mem_cons_of_mem _ ?_)))
      exact List.mem_flatMap.2 ⟨y, hy, by simp⟩
    rcases item_name fit F C hH h with e2 | ⟨S', hS', _, _, _, e2, _⟩
    · rw [e2] at e
      subst e
      rw [look_node hb] at hl
      cases hl
      rcases hr with ⟨S', hc, hk', hm⟩ | ⟨S', hS', hk', hm, e4⟩
      · have := names_one fit F C mem (C.act S' (C.called _ _ hc).1) (hn hk hx) (hn' hk' hm)
        subst this
        have nd := (fit.own S mem).2.1
        have nd := nodup_prefix (nodup_prefix nd)
        unfold Svc.coreNames at nd
        rw [if_neg (by simp [hk])] at nd
        unfold wrapNames at nd
        refine absurd rfl ((List.nodup_append.1 nd).2.2 x ?_ x hx)
        simp only [List.mem_append, List.mem_cons]
        exact .inr (.inr (List.mem_flatMap.2 ⟨x, hm, by simp⟩))
      · rw [e4, names_one fit F C mem (C.act S' hS') (hn hk hx) (hn hk' hm)]
    · rw [e2] at e
      rw [e, (F.services S' (C.act S' hS')).self] at hb
      cases hb

theorem reach_under {S : Svc} (hS : Act S) (a : List Name) :
    ∀ b, S.places = a ++ b → Reach E L (b ++ S.ctx) (S.under a) S.home S.server := by
  induction a using Wiring.concat_induction with
  | nil =>
    intro b e
    have : b ++ S.ctx = S.home := by simp [Svc.home, e]
    rw [this]
    exact .refl
  | append a x ih =>
    intro b e
    have e' : S.places = a ++ x :: b := by simp [e]
    rw [under_snoc]
    have hl := look_node ((F.services S (C.act S hS)).enters a x b e')
    have ha := acc_place fit F C hS e
    simp only [List.length_append, List.length_cons, List.length_nil] at ha
    rw [← Nat.add_assoc] at ha
    exact reach_head (.built hl ha .inside) (ih (x :: b) e')

theorem reach_served {S : Svc} (hS : Act S) {a b : List Name} {x : Name} (e : S.places = a ++ x :: b) :
    ∃ n', Reach E L S.home (subN S.name x) S.home n' ∧ Owns E L S.home n' (S.servedTree (H S)) := by
  have e' : S.places = (a ++ [x]) ++ b := by simp [e]
  have h1 : Reach E L S.home (subN S.name x) S.home S.server := by
    refine climb_home (P := fun q => Reach E L q (subN S.name x) S.home S.server) fit F C hS (a.length + 1) ?_ ?_
    · intro y r _ _ ha hr
      exact reach_head (.climb (look_node ((F.services S (C.act S hS)).enters a x b e)) ha) hr
    · have := reach_under fit F C hH hS (a ++ [x]) b e'
      rw [under_snoc] at this
      have hd : S.home.drop (a.length + 1) = b ++ S.ctx := by
        have : S.home = (a ++ [x]) ++ (b ++ S.ctx) := by simp [Svc.home, e]
        rw [this, List.drop_left' (by simp)]
      rw [hd]; exact this
  have B := F.services S (C.act S hS)
  have hd := den_served fit F C hH hS
  unfold Svc.server at h1 hd
  rcases tree_names fit F C hH hS with ⟨hrpc, _⟩ | ⟨hrpc, e0, _, e1⟩ | ⟨hrpc, l, y, e0, _⟩
  · rw [if_pos hrpc] at h1 hd
    exact ⟨_, h1, owns_of fit F C hH hd (B.rpc hrpc).server (acc_base fit F C hS) (binder_proxy S)⟩
  · have hk := front_of fit F C hS hrpc
    rw [hrpc, e0] at h1
    simp only [Bool.false_eq_true, if_false, topOf, List.getLastD_nil] at h1
    refine ⟨checkN S.name, h1.step (.alias (look_alias (B.base hk).dst (B.base hk).check) (alias_ne (B.base hk).dst (B.base hk).check)), ?_⟩
    rw [e1]
    obtain ⟨d, hd⟩ := (hH S hS hk).2
    exact owns_of fit F C hH (den_check fit F C hS hk hd (isServ fit F C hH hS hk)) (B.base hk).check (acc_home fit F C hS hk) rfl
  · have hk := front_of fit F C hS hrpc
    rw [hrpc] at h1 hd
    simp only [Bool.false_eq_true, if_false] at h1 hd
    rw [e0, topOf_snoc] at h1 hd
    obtain ⟨b', hb⟩ := tower_mem _ _ (B.tower hk) (x := y) (by simp [e0])
    exact ⟨_, h1, owns_of fit F C hH hd hb (acc_home fit F C hS hk) rfl⟩

variable {cur : List Job} {s : St} (inv : Inv w.env (Lawful w Act Called) cur s)
include inv

/-- What a namespace has built is among the nodes that its handler was told. -/
theorem item_node {sp : Space} {n : Name} {t : Tree} (h : Item Act Called H sp n t) (hs : s.seen sp n ≠ none) : t ∈ s.nodes sp := by
  have ho := item_owns fit F C hH h
  rcases inv.added sp _ (inv.owned sp n t hs ho) with ⟨t', ht', e⟩ | ⟨m, t', hh, e, hne⟩
  · rcases List.mem_append.1 ht' with h1 | h1
    · obtain ⟨n', ho', _⟩ := inv.nodes sp t' h1
      obtain ⟨n0, hi⟩ := owns_item fit F C hH ho'
      rw [← item_inj fit F C hH hi h e]; exact h1
    · obtain ⟨n', ⟨d, ty, k, hd, hl, ha, hk, _⟩, _⟩ := inv.edges sp t' h1
      obtain ⟨rfl, e1, _⟩ := refused fit F C hH hd hl ha hk
      exact (item_app fit F C hH h hl ha (e.symm.trans e1)).elim
  · obtain ⟨d, ty, k, hd, hl, hk⟩ := hh
    cases hp : k.proxy with
    | true =>
      cases k with
      | enter x next =>
        obtain ⟨S, a, b, hS, ep, rfl⟩ := hd.legal.2 _ _ hl
        have et := entered fit F C hH hS ep _ _ hd
        rw [et] at e
        have := served_home fit F C hH hS h e
        subst this
        obtain ⟨n', hr, ho'⟩ := reach_served fit F C hH hS ep
        exact absurd e (hne n' _ hr ho')
      | _ => cases hp
    | false =>
      rcases hk with hk | ⟨ha, _⟩
      · rw [hp] at hk; cases hk
      cases hqt : k.quiet with
      | true =>
        cases k with
        | container addr =>
          obtain ⟨S, hS, hb, hrpc, rfl, _⟩ := hd.legal.2 _ _ hl
          exfalso
          have en : (S.servedTree (H S)).name = S.serverN := by
            unfold Svc.servedTree; rw [if_pos hb]; rfl
          have := served_home fit F C hH hS h (en.trans ((den_ctr hd hl).symm.trans e))
          subst this
          rw [look_node ((F.services S (C.act S hS)).rpc hrpc).server, binder_back hb] at hl
          cases hl
          rw [acc_base fit F C hS] at ha; cases ha
        | enter x next => cases hp
        | _ => cases hqt
      | false =>
        obtain ⟨rfl, e1, _⟩ := refused fit F C hH hd hl ha hqt
        exact (item_app fit F C hH h hl ha (e.symm.trans e1)).elim

/-- What a namespace has gotten from outside is among the edges that its handler was told. -/
theorem cross_edge {sp : Space} {n : Name} {t : Tree} (h : Crosses E L sp n t) (hs : s.seen sp n ≠ none) : t ∈ s.edges sp := by
  have hc := inv.crossed sp n t hs h
  obtain ⟨d, ty, k, hd, hl, ha, hk, hm⟩ := h
  obtain ⟨rfl, e1, _⟩ := refused fit F C hH hd hl ha hk
  rcases inv.added sp _ hc with ⟨t', ht', e⟩ | ⟨m, t', hh, e, hne⟩
  · rcases List.mem_append.1 ht' with h1 | h1
    · obtain ⟨n', ho', _⟩ := inv.nodes sp t' h1
      obtain ⟨n0, hi⟩ := owns_item fit F C hH ho'
      exact (item_app fit F C hH hi hl ha (e.trans e1)).elim
    · obtain ⟨n', ⟨d', ty', k', hd', hl', ha', hk', _⟩, _⟩ := inv.edges sp t' h1
      obtain ⟨rfl, e1', _⟩ := refused fit F C hH hd' hl' ha' hk'
      rw [e1, e1'] at e
      subst e
      rw [(hd.det hd').2]; exact h1
  · obtain ⟨d', ty', k', hd', hl', hk'⟩ := hh
    cases hp : k'.proxy with
    | true =>
      cases k' with
      | enter x next =>
        obtain ⟨S, a, b, hS, ep, rfl⟩ := hd'.legal.2 _ _ hl'
        have et := entered fit F C hH hS ep _ _ hd'
        rw [et, e1] at e
        exfalso
        have B := F.services S (C.act S hS)
        rcases tree_names fit F C hH hS with ⟨hrpc, e2⟩ | ⟨hrpc, e0, e2, _⟩ | ⟨hrpc, l, y, e0, e2⟩
        · rw [← e, e2, look_node (B.rpc hrpc).server] at hl; cases hl
        · rw [← e, e2, look_node B.self] at hl; cases hl
        · obtain ⟨b', hb⟩ := tower_mem _ _ (B.tower (front_of fit F C hS hrpc)) (x := y) (by simp [e0])
          rw [← e, e2, look_node hb] at hl; cases hl
      | _ => cases hp
    | false =>
      rcases hk' with hk' | ⟨ha', hm'⟩
      · rw [hp] at hk'; cases hk'
      cases hqt : k'.quiet with
      | true =>
        cases k' with
        | container addr =>
          obtain ⟨S, hS, hb, hrpc, rfl, _⟩ := hd'.legal.2 _ _ hl'
          exfalso
          rw [den_ctr hd' hl', e1] at e
          rw [← e, look_node ((F.services S (C.act S hS)).rpc hrpc).server] at hl
          cases hl
        | enter x next => cases hp
        | _ => cases hqt
      | false =>
        obtain ⟨rfl, e1', _⟩ := refused fit F C hH hd' hl' ha' hqt
        rw [e1, e1'] at e
        subst e
        rw [hqt] at hm'
        rcases hm' with hm' | hm'
        · rw [(hd.det hd').2, hm'] at hm; cases hm
        · cases hm'

end

end Verif.Compile
