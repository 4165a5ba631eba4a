import Verif.Compile.Ends
/-
Every active service has been built when a compilation ends.
-/
namespace Verif.Compile
set_option linter.unusedSimpArgs false
set_option linter.unusedSectionVars false
open Verif.Wiring (Name Ptr nextOf)

/-- The service has been built. -/
structure Up (s : St) (S : Svc) : Prop where
  check : S.back = false → s.seen S.home (checkN S.name) ≠ none
  wraps : S.back = false → ∀ x ∈ servers S.name S.wraps, s.seen S.home x ≠ none
  server : S.rpc = true → s.seen S.home S.serverN ≠ none

theorem asks_addr {env : Env} {Legal : Space → Name → Prop} {sp : Space} {n : Name} (S : Svc) : Asks env Legal sp n S.binder sp S.addrN := by
  unfold Svc.binder
  split
  · exact .ctrAddress
  · exact .address

theorem asks_bind {env : Env} {Legal : Space → Name → Prop} {sp : Space} {n a : Name} {d : Nat} (S : Svc)
    (h : Den env Legal d sp S.addrN (.addr a)) : Asks env Legal sp n S.binder sp (bindName a) := by
  unfold Svc.binder
  split
  · exact .ctrBind h
  · exact .bind h

theorem addr_names {V : Svc} (hv : V.rpc = true) : V.addrN ∈ V.names := by
  unfold Svc.names; simp [hv, rpcNames]

section
variable {A : App} {rank : Name → Nat} {w : Wired} {Act : Svc → Prop} {Called : Space → Svc → Prop}

local notation "L" => Lawful w Act Called
local notation "E" => Wired.env w

variable (fit : A.Fits rank) (F : Facts A w) (C : Closed A Act Called) {H : Svc → Tree}
  (hH : ∀ S, Act S → S.back = false → H S = .handler S.name (S.args.map (A.argTree H)) ∧
    ∃ d, Den w.env (Lawful w Act Called) d S.home (handlerN S.name) (H S))
  {s : St} (inv : Inv w.env (Lawful w Act Called) [] s)
include fit F C hH inv

theorem see_alias {sp : Space} {n i : Name} {ty : Ty} {k : Option Kind} (h : tab w.spec n = some (.alias i))
    (h' : tab w.spec i = some (.node ty k)) (hs : s.seen sp n ≠ none) : s.seen sp i ≠ none :=
  inv.subs _ _ _ _ hs (.alias (look_alias h h') (alias_ne h h'))

theorem see_alias2 {sp : Space} {n i j : Name} {ty : Ty} {k : Option Kind} (h : tab w.spec n = some (.alias i))
    (h' : tab w.spec i = some (.alias j)) (h'' : tab w.spec j = some (.node ty k)) (hs : s.seen sp n ≠ none) : s.seen sp j ≠ none :=
  inv.subs _ _ _ _ hs (.alias (look_alias2 h h' h'') (alias_ne h h''))

theorem see_ask {sp sp' : Space} {n n' : Name} {ty : Ty} {k : Kind} (h : tab w.spec n = some (.node ty (some k)))
    (ha : Env.accepts E sp ty = true) (hk : Asks E L sp n k sp' n') (hs : s.seen sp n ≠ none) : s.seen sp' n' ≠ none :=
  inv.subs _ _ _ _ hs (.built (look_node h) ha hk)

theorem see_app {n : Name} {k : Kind} (h : tab w.spec n = some (.node .app (some k))) : ∀ (a sp : Space), s.seen (a ++ sp) n ≠ none →
    s.seen sp n ≠ none
  | [], _, hs => hs
  | _ :: a, sp, hs => see_app h a sp (inv.subs _ _ _ _ hs (.climb (look_node h) rfl))

theorem tower_seen {S : Svc} (hS : Act S) (hk : S.back = false) : ∀ (ss : List Name) (bot : Name), Tower (tab w.spec) bot ss →
    s.seen S.home (ss.getLastD bot) ≠ none → s.seen S.home bot ≠ none ∧ ∀ x ∈ ss, s.seen S.home x ≠ none
  | [], _, _, hs => ⟨hs, fun _ h => by cases h⟩
  | x :: ss, bot, h, hs => by
    rw [List.getLastD_cons] at hs
    obtain ⟨h1, h2⟩ := tower_seen hS hk ss x h.2 hs
    refine ⟨see_ask fit F C hH inv h.1 (acc_home fit F C hS hk) .wrap h1, ?_⟩
    intro y hy
    rcases List.mem_cons.1 hy with rfl | hy
    · exact h1
    · exact h2 y hy

theorem top_seen {S : Svc} (hS : Act S) (hk : S.back = false) (hs : s.seen S.home (topOf S.name (servers S.name S.wraps)) ≠ none) :
    s.seen S.home (checkN S.name) ≠ none ∧ ∀ x ∈ servers S.name S.wraps, s.seen S.home x ≠ none := by
  have B := F.services S (C.act S hS)
  obtain ⟨h1, h2⟩ := tower_seen fit F C hH inv hS hk _ _ (B.tower hk) hs
  exact ⟨see_alias fit F C hH inv (B.base hk).dst (B.base hk).check h1, h2⟩

theorem up_of_server {S : Svc} (hS : Act S) (hs : s.seen S.home S.server ≠ none) : Up s S := by
  have B := F.services S (C.act S hS)
  unfold Svc.server at hs
  cases hr : S.rpc with
  | true =>
    rw [if_pos hr] at hs
    cases hk : S.back with
    | true => exact ⟨fun e => (by rw [hk] at e; cases e), fun e => (by rw [hk] at e; cases e), fun _ => hs⟩
    | false =>
      have h0 := (B.rpc hr).server
      rw [base_zero hk, binder_front hk] at h0
      have h1 := see_ask fit F C hH inv h0 (acc_home fit F C hS hk) .served hs
      obtain ⟨h2, h3⟩ := top_seen fit F C hH inv hS hk h1
      exact ⟨fun _ => h2, fun _ => h3, fun _ => hs⟩
  | false =>
    rw [hr] at hs
    obtain ⟨h2, h3⟩ := top_seen fit F C hH inv hS (front_of fit F C hS hr) hs
    exact ⟨fun _ => h2, fun _ => h3, fun e => by rw [hr] at e; cases e⟩

/-- What is at an address is the server of the service with that address. -/
theorem dest_served {a : Name} {t : Tree} (e7 : s.dest a = some t) :
    ∃ S, Act S ∧ S.rpc = true ∧ a = S.addrN ∧ t = S.servedTree (H S) ∧ s.seen S.home S.serverN ≠ none := by
  obtain ⟨d4, q, n, ty, k, hd4, hl4, ha4, et4, hs4⟩ := inv.destOk _ _ e7
  have fin : ∀ V, Act V → V.rpc = true → n = V.serverN → q = V.home → Serves k n t a →
      ∃ S, Act S ∧ S.rpc = true ∧ a = S.addrN ∧ t = S.servedTree (H S) ∧ s.seen S.home S.serverN ≠ none := by
    intro V hV hVr e8 e9 hsv
    subst e8 e9
    obtain ⟨d5, hd5⟩ := den_served fit F C hH hV
    unfold Svc.server at hd5
    rw [if_pos hVr] at hd5
    have e10 := (hd4.det hd5).2
    refine ⟨V, hV, hVr, ?_, e10, hs4⟩
    unfold Svc.servedTree at e10
    rw [if_pos hVr] at e10
    rcases hsv with ⟨_, _, u, _, et⟩ | ⟨_, _, et⟩
    · rw [et] at e10
      split at e10
      · cases e10
      · injection e10
    · rw [et] at e10
      split at e10
      · injection e10
      · cases e10
  have hr := hd4.legal.2 _ _ hl4
  rcases et4 with ⟨next, addr, u, rfl, et⟩ | ⟨addr, rfl, et⟩
  · obtain ⟨V, hV, _, hVr, e8, e9⟩ := hr
    exact fin V hV hVr e8 e9 (.inl ⟨_, _, _, rfl, et⟩)
  · obtain ⟨V, hV, hk, hVr, e8, e9⟩ := hr
    refine fin V hV hVr e8 ?_ (.inr ⟨_, rfl, et⟩)
    rcases e9 with e9 | e9
    · exact e9
    · rw [e8, look_node ((F.services V (C.act V hV)).rpc hVr).server, binder_back hk] at hl4
      have hb : V.base = 2 := by simp [Svc.base, hk]
      rw [hb] at hl4
      cases hl4
      rw [e9] at ha4; cases ha4

theorem chain_seen {S : Svc} {sp : Space} (hc : Called sp S) {i : Name} : ∀ (cs : List Name) (st : Name), Chain (tab w.spec) st cs i →
    s.seen sp st ≠ none → (∀ x ∈ cs, s.seen sp x ≠ none) ∧ ∃ st', tab w.spec st' = some (.alias i) ∧ s.seen sp st' ≠ none
  | [], st, h, hs => ⟨fun _ h => (by cases h), st, h, hs⟩
  | x :: cs, st, h, hs => by
    obtain ⟨h1, h2, h3⟩ := h
    have hx := see_alias fit F C hH inv h1 h2 hs
    have hn := see_ask fit F C hH inv h2 (acc_called fit F C hc) .wrap hx
    obtain ⟨h4, h5⟩ := chain_seen hc cs _ h3 hn
    refine ⟨?_, h5⟩
    intro y hy
    rcases List.mem_cons.1 hy with rfl | hy
    · exact hx
    · exact h4 y hy

/-- Where a service is called, its clients are built. -/
structure Wired.At (s : St) (sp : Space) (S : Svc) : Prop where
  client : S.back = false → s.seen sp (clientN S.name) ≠ none
  wraps : S.back = false → ∀ x ∈ clients S.name S.wraps, s.seen sp x ≠ none
  grpc : S.rpc = true → s.seen sp S.rpcClientN ≠ none ∧ s.seen sp (dialName S.addrN) ≠ none

theorem chain_to {S : Svc} {sp : Space} (hc : Called sp S) (hk : S.back = false) (h2 : s.seen sp (clientN S.name) ≠ none) :
    (∀ x ∈ clients S.name S.wraps, s.seen sp x ≠ none) ∧ ∃ st, tab w.spec st = some (.alias S.callee) ∧ s.seen sp st ≠ none := by
  have B := F.services S (C.act S (C.called _ _ hc).1)
  have h3 := see_ask fit F C hH inv (B.base hk).client (acc_called fit F C hc) .client h2
  exact chain_seen fit F C hH inv hc _ _ (B.chain hk) h3

theorem client_seen {S : Svc} {sp : Space} (hc : Called sp S) (hs : s.seen sp S.name ≠ none) (hq : s.queue = []) :
    Wired.At s sp S ∧ Up s S := by
  obtain ⟨hS, hu, hsite⟩ := C.called sp S hc
  have B := F.services S (C.act S hS)
  obtain ⟨p, e1, e2, e3, _⟩ := B.ptr
  have acc := acc_called fit F C hc
  have h1 := see_ask fit F C hH inv B.self acc (.ptr e1) hs
  rw [e2] at h1
  cases hr : S.rpc with
  | true =>
    have R := B.rpc hr
    have front : S.back = false → s.seen sp (clientN S.name) ≠ none := fun hk =>
      see_alias fit F C hH inv B.src (B.base hk).client h1
    have h7 : s.seen sp S.rpcClientN ≠ none := by
      cases hk : S.back with
      | true =>
        have e : S.rpcClientN = clientN S.name := by simp [Svc.rpcClientN, hk]
        have hcl := R.client
        rw [e] at hcl ⊢
        exact see_alias fit F C hH inv B.src hcl h1
      | false =>
        obtain ⟨_, st, h5, h6⟩ := chain_to fit F C hH inv hc hk (front hk)
        have e : S.callee = S.rpcClientN := by simp [Svc.callee, hr, Svc.rpcClientN, hk]
        rw [e] at h5
        exact see_alias fit F C hH inv h5 R.client h6
    have hp := path_called fit F C hc
    obtain ⟨d1, hd1⟩ := den_addr fit F C hS hr hp
    obtain ⟨d2, hd2⟩ := den_alias R.next (.inl ⟨_, _, R.addr⟩) hp hd1
    have h8 := see_ask fit F C hH inv R.client acc (.dial hd2) h7
    refine ⟨⟨front, fun hk => (chain_to fit F C hH inv hc hk (front hk)).1, fun _ => ⟨h7, h8⟩⟩, ?_⟩
    rcases inv.ptrs sp S.name _ hs (look_node B.self) acc with h | ⟨p', t, e1', e4, e5⟩
    · rw [hq] at h; simp at h
    · rw [e1] at e1'
      cases e1'
      obtain ⟨_, d3, t', e6, hd3⟩ := inv.seen _ _ _ e4
      cases e6
      have hi : p.interfaceNode = S.addrN := by rw [e3]; simp [Svc.iface, hr]
      rw [hi] at hd3
      have et := (hd3.det hd1).2
      have hdest := e5 _ et
      cases e7 : s.dest S.addrN with
      | none => exact absurd e7 hdest
      | some t1 =>
        obtain ⟨V, hV, hVr, e11, _, hs4⟩ := dest_served fit F C hH inv e7
        have := names_one fit F C (C.act S hS) (C.act V hV) (addr_names hr) (e11 ▸ addr_names hVr)
        subst this
        exact up_of_server fit F C hH inv hS (by unfold Svc.server; rw [if_pos hr]; exact hs4)
  | false =>
    have hk := front_of fit F C hS hr
    have h2 := see_alias fit F C hH inv B.src (B.base hk).client h1
    obtain ⟨h4, st, h5, h6⟩ := chain_to fit F C hH inv hc hk h2
    unfold Svc.callee at h5
    have e : sp = S.home := by
      rcases hu with ⟨_, e⟩ | ⟨e, _⟩
      · exact e
      · rw [hr] at e; cases e
    subst e
    refine ⟨⟨fun _ => h2, fun _ => h4, fun e => by rw [hr] at e; cases e⟩, ?_⟩
    simp only [hr, Bool.false_eq_true, if_false] at h5
    rcases List.eq_nil_or_concat (servers S.name S.wraps) with e | ⟨l, x, e⟩
    · rw [e] at h5
      have h7 := see_alias2 fit F C hH inv h5 (B.base hk).dst (B.base hk).check h6
      exact ⟨fun _ => h7, fun _ => (by rw [e]; intro x h; cases h), fun e' => (by rw [hr] at e'; cases e')⟩
    · rw [List.concat_eq_append] at e
      obtain ⟨b, hb⟩ := tower_mem _ _ (B.tower hk) (x := x) (by simp [e])
      rw [e, topOf_snoc] at h5
      have h7 := see_alias fit F C hH inv h5 hb h6
      refine up_of_server fit F C hH inv hS ?_
      unfold Svc.server
      simp only [hr, Bool.false_eq_true, if_false]
      rw [e, topOf_snoc]
      exact h7

theorem under_seen {S : Svc} (hS : Act S) (a : List Name) :
    ∀ b, S.places = a ++ b → s.seen (b ++ S.ctx) (S.under a) ≠ none → s.seen S.home S.server ≠ none := by
  induction a using Wiring.concat_induction with
  | nil =>
    intro b e h
    have : b ++ S.ctx = S.home := by simp [Svc.home, e]
    rw [this] at h
    exact h
  | append a x ih =>
    intro b e h
    have e' : S.places = a ++ x :: b := by simp [e]
    rw [under_snoc] at h
    have ha := acc_place fit F C hS e
    simp only [List.length_append, List.length_cons, List.length_nil] at ha
    rw [← Nat.add_assoc] at ha
    exact ih (x :: b) e' (see_ask fit F C hH inv ((F.services S (C.act S hS)).enters a x b e') ha .inside h)

/-- The services in a namespace that was derived are built. -/
theorem kids_up (hq : s.queue = []) {S : Svc} (hS : Act S) {x : Name} {r : Space} {a : List Name} (e : S.home = a ++ x :: r)
    (hlv : s.level (x :: r) ≠ none) {U : Svc} (hU : U ∈ A.svcs) (hx : x ∈ U.places) : Up s U := by
  obtain ⟨a', b, e1⟩ := List.append_of_mem hx
  have hUA : Act U := C.beside S U a x r hS e hU hx
  have e2 : r = b ++ U.ctx := fit.nested S (C.act S hS) U hU a x r a' (b ++ U.ctx) e (by simp [Svc.home, e1])
  rcases inv.kids x r hlv with h | h
  · rw [hq] at h; simp at h
  · have := h (U.under a') ((F.kids x _ (fit.homes S (C.act S hS) a x r e) _).2 ⟨U, hU, a', b, e1, rfl⟩)
    rw [e2] at this
    exact up_of_server fit F C hH inv hUA (under_seen fit F C hH inv hUA a' (x :: b) e1 this)

theorem args_seen {S : Svc} (hS : Act S) (hk : S.back = false) (hs : s.seen S.home (handlerN S.name) ≠ none) {str : Bool} {U : Svc} (hU : U ∈ A.svcs)
    (h : (str, U.name) ∈ S.ctor.zip S.args) : s.seen S.home U.name ≠ none :=
  see_ask fit F C hH inv ((F.services S (C.act S hS)).base hk).handler (acc_home fit F C hS hk)
    (.arg h fun _ => by rw [look_node (F.services U hU).self]; simp) hs

theorem up_handler {S : Svc} (hS : Act S) (hk : S.back = false) (h : Up s S) : s.seen S.home (handlerN S.name) ≠ none :=
  see_ask fit F C hH inv ((F.services S (C.act S hS)).base hk).check (acc_home fit F C hS hk) .target (h.check hk)

theorem up_live {S : Svc} (hS : Act S) (h : Up s S) {a r : List Name} {x : Name} (e : S.home = a ++ x :: r) : s.level (x :: r) ≠ none := by
  have h1 : Live s S.home := by
    have : ∃ n, s.seen S.home n ≠ none := by
      cases hk : S.back with
      | false => exact ⟨_, h.check hk⟩
      | true => exact ⟨_, h.server (fit.backs S (C.act S hS) hk).1⟩
    obtain ⟨n, hn⟩ := this
    cases e' : s.seen S.home n with
    | none => exact absurd e' hn
    | some o => exact (inv.seen _ _ _ e').1
  have : ∀ (a q : Space), Live s (a ++ q) → Live s q := by
    intro a q
    induction a with
    | nil => exact id
    | cons y a ih => intro hl; exact ih (inv.live_tail hl)
  rw [e] at h1
  rcases this a _ h1 with h2 | h2
  · cases h2
  · exact h2

end

/-! ### Active services -/

theorem active_mem {A : App} {nodes : List Name} {S : Svc} (h : A.Active nodes S) : S ∈ A.svcs := by
  cases h <;> assumption

/-- Only services that run in processes depend on others. -/
theorem args_front {A : App} {rank : Name → Nat} (fit : A.Fits rank) {S : Svc} (hS : S ∈ A.svcs) {str : Bool} {a : Name}
    (h : (str, a) ∈ S.ctor.zip S.args) : S.back = false := by
  cases hk : S.back with
  | false => rfl
  | true => rw [(fit.backs S hS hk).2.1] at h; simp at h

theorem closed_of {A : App} {rank : Name → Nat} {nodes : List Name} (fit : A.Fits rank) (req : A.Requests nodes) :
    Closed A (A.Active nodes) (A.Calls nodes) := by
  refine ⟨fun S h => active_mem h, ?_, ?_, ?_⟩
  · rintro sp U ⟨hU, ⟨rfl, hn⟩ | ⟨S, str, hS, rfl, hp⟩⟩
    · refine ⟨.requested hU hn, ?_, .inl rfl⟩
      rcases req _ hn with ⟨S, hS, e, hu⟩ | ⟨S, hS, a, e, e'⟩
      · rw [fit.one U hU S hS e]; exact hu
      · have := fit.homes S hS a U.name [] (by simp [Svc.home, e, e'])
        exact absurd this ((fit.own U hU).2.2 _)
    · refine ⟨.called hS hp hU, ?_, .inr ⟨S, hS, args_front fit (active_mem hS) hp, rfl⟩⟩
      rcases (fit.args S (active_mem hS)).2 str _ hp with ⟨_, hf⟩ | ⟨V, hV, e, hu, _⟩
      · exact absurd (self_name U) (hf.1 U hU)
      · rw [← fit.one V hV U hU e]; exact hu
  · intro S str U hS hU hp
    exact ⟨hU, .inr ⟨S, str, hS, rfl, hp⟩⟩
  · intro S U a x b hS e hU hx
    exact .beside hS (by simp [e]) hU hx

section
variable {A : App} {rank : Name → Nat} {w : Wired} {nodes : List Name}

variable (fit : A.Fits rank) (F : Facts A w) (req : A.Requests nodes) {H : Svc → Tree}
  (hH : ∀ S, A.Active nodes S → S.back = false → H S = .handler S.name (S.args.map (A.argTree H)) ∧
    ∃ d, Den w.env (Lawful w (A.Active nodes) (A.Calls nodes)) d S.home (handlerN S.name) (H S))
  {s : St} (inv : Inv w.env (Lawful w (A.Active nodes) (A.Calls nodes)) [] s) (hq : s.queue = [])
  (hn : ∀ n ∈ nodes, s.seen [] n ≠ none)
include fit F req hH inv hq hn

theorem active_up {S : Svc} (h : A.Active nodes S) : Up s S := by
  have C := closed_of fit req
  induction h with
  | requested hS hm => exact (client_seen fit F C hH inv ⟨hS, .inl ⟨rfl, hm⟩⟩ (hn _ hm) hq).2
  | @space S x hS hm hx =>
    rcases req _ hm with ⟨U, hU, e, _⟩ | ⟨U, hU, a, e, e'⟩
    · obtain ⟨a', b, e1⟩ := List.append_of_mem hx
      have := fit.homes S hS a' x (b ++ S.ctx) (by simp [Svc.home, e1])
      rw [e] at this
      exact absurd this ((fit.own U hU).2.2 _)
    · have hUA : A.Active nodes U := .space hU hm (by simp [e])
      have eh : U.home = a ++ [x] := by simp [Svc.home, e, e']
      refine kids_up fit F C hH inv hq hUA eh ?_ hS hx
      rw [inv.space [] x _ _ (hn x hm) (look_space fit F C hUA eh) rfl]
      simp
  | @beside S U x hS hx hU hx' ih =>
    obtain ⟨a, b, e⟩ := List.append_of_mem hx
    exact kids_up fit F C hH inv hq hS e (up_live fit F C hH inv hS ih e) hU hx'
  | @called S U str hS hp hU ih =>
    have hk := args_front fit (active_mem hS) hp
    have h1 := args_seen fit F C hH inv hS hk (up_handler fit F C hH inv hS hk ih) hU hp
    exact (client_seen fit F C hH inv ⟨hU, .inr ⟨S, str, hS, rfl, hp⟩⟩ h1 hq).2

theorem calls_at {S : Svc} {sp : Space} (h : A.Calls nodes sp S) : Wired.At s sp S := by
  have C := closed_of fit req
  refine (client_seen fit F C hH inv h ?_ hq).1
  obtain ⟨hS, ⟨rfl, hm⟩ | ⟨V, str, hV, rfl, hp⟩⟩ := h
  · exact hn _ hm
  · have hk := args_front fit (active_mem hV) hp
    exact args_seen fit F C hH inv hV hk (up_handler fit F C hH inv hV hk (active_up fit F req hH inv hq hn hV)) hS hp

theorem item_seen {sp : Space} {n : Name} {t : Tree} (h : Item (A.Active nodes) (A.Calls nodes) H sp n t) : s.seen sp n ≠ none := by
  have C := closed_of fit req
  have up : ∀ {S}, A.Active nodes S → Up s S := fun h => active_up fit F req hH inv hq hn h
  have ca : ∀ {S q}, A.Calls nodes q S → Wired.At s q S := fun h => calls_at fit F req hH inv hq hn h
  cases h with
  | handler hS hk => exact up_handler fit F C hH inv hS hk (up hS)
  | serverWrap hS hk e => exact (up hS).wraps hk _ (by simp [e])
  | server hS hr => exact (up hS).server hr
  | client hc hk => exact (ca hc).client hk
  | clientWrap hc hk e => exact (ca hc).wraps hk _ (by simp [e])
  | grpcClient hc hr => exact ((ca hc).grpc hr).1
  | @visibility S hS hk =>
    have B := F.services S (C.act S hS)
    refine see_app fit F C hH inv (B.base hk).vis S.home [] ?_
    rw [List.append_nil]
    exact see_ask fit F C hH inv (B.base hk).check (acc_home fit F C hS hk) .metadata ((up hS).check hk)
  | @addr S hS hr =>
    have B := F.services S (C.act S hS)
    refine see_app fit F C hH inv (B.rpc hr).addr S.home [] ?_
    rw [List.append_nil]
    exact see_ask fit F C hH inv (B.rpc hr).server (acc_base fit F C hS) (asks_addr S) ((up hS).server hr)
  | @bind S hS hr =>
    have B := F.services S (C.act S hS)
    refine see_app fit F C hH inv (B.rpc hr).bind S.home [] ?_
    rw [List.append_nil]
    obtain ⟨d, hd⟩ := den_addr fit F C hS hr (sp := S.home) (.home hS)
    exact see_ask fit F C hH inv (B.rpc hr).server (acc_base fit F C hS) (asks_bind S hd) ((up hS).server hr)
  | @dial S sp' hc hr =>
    have B := F.services S (C.act S (C.called _ _ hc).1)
    refine see_app fit F C hH inv (B.rpc hr).dial sp' [] ?_
    rw [List.append_nil]
    exact ((ca hc).grpc hr).2
  | @space S a b x hS e =>
    have hlv := up_live fit F C hH inv hS (up hS) e
    cases e' : s.level (n :: sp) with
    | none => exact absurd e' hlv
    | some l =>
      obtain ⟨y, r, ty, e1, _, _, e2⟩ := inv.level _ _ e'
      cases e1
      exact e2

theorem nodes_iff (sp : Space) (t : Tree) : t ∈ s.nodes sp ↔ A.Expected nodes H sp t := by
  have C := closed_of fit req
  constructor
  · intro h
    obtain ⟨n, ho, _⟩ := inv.nodes sp t h
    obtain ⟨n0, hi⟩ := owns_item fit F C hH ho
    cases hi with
    | handler hS hk => exact .handler hS hk
    | serverWrap hS hk e => exact .serverWrap hS hk e
    | server hS hr => exact .server hS hr
    | client hc hk => exact .client hc hk
    | clientWrap hc hk e => exact .clientWrap hc hk e
    | grpcClient hc hr => exact .grpcClient hc hr
    | visibility hS hk => exact .visibility hS hk
    | addr hS hr => exact .addr hS hr
    | bind hS hr => exact .bind hS hr
    | dial hc hr => exact .dial hc hr
    | space hS e => exact .space hS e
  · intro h
    have : ∃ n, Item (A.Active nodes) (A.Calls nodes) H sp n t := by
      cases h with
      | handler hS hk => exact ⟨_, .handler hS hk⟩
      | serverWrap hS hk e => exact ⟨_, .serverWrap hS hk e⟩
      | server hS hr => exact ⟨_, .server hS hr⟩
      | client hc hk => exact ⟨_, .client hc hk⟩
      | clientWrap hc hk e => exact ⟨_, .clientWrap hc hk e⟩
      | grpcClient hc hr => exact ⟨_, .grpcClient hc hr⟩
      | visibility hS hk => exact ⟨_, .visibility hS hk⟩
      | addr hS hr => exact ⟨_, .addr hS hr⟩
      | bind hS hr => exact ⟨_, .bind hS hr⟩
      | dial hc hr => exact ⟨_, .dial hc hr⟩
      | space hS e => exact ⟨_, .space hS e⟩
    obtain ⟨n, hi⟩ := this
    exact item_node fit F C hH inv hi (item_seen fit F req hH inv hq hn hi)

theorem edges_iff (sp : Space) (t : Tree) : t ∈ s.edges sp ↔ A.Needed nodes sp t := by
  have C := closed_of fit req
  constructor
  · intro h
    obtain ⟨n, ⟨d, ty, k, hd, hl, ha, hk, hm⟩, _⟩ := inv.edges sp t h
    obtain ⟨rfl, e1, h1⟩ := refused fit F C hH hd hl ha hk
    have hsp : ∃ x b, sp = x :: b := by
      cases sp with
      | nil => cases ha
      | cons x b => exact ⟨x, b, rfl⟩
    obtain ⟨x, b, rfl⟩ := hsp
    rcases h1 with ⟨S, _, _, _, e⟩ | ⟨S, _, _, _, e⟩ | ⟨S, a, hS, hr, e2, e, eh⟩ | ⟨S, a, hc, hr, e2, e⟩
    · rw [e] at hm; cases hm
    · rw [e] at hm; cases hm
    · rw [e, e2]; exact .bind hS hr eh
    · rw [e, e2]; exact .dial hc hr
  · intro h
    cases h with
    | @bind S a b x hS hr eh =>
      have B := F.services S (C.act S hS)
      obtain ⟨d, hd⟩ := den_bind fit F C hS hr eh
      refine cross_edge fit F C hH inv ⟨d, _, _, hd, look_node (B.rpc hr).bind, rfl, rfl, rfl⟩ ?_
      refine see_app fit F C hH inv (B.rpc hr).bind a _ ?_
      rw [← eh]
      obtain ⟨d, hd⟩ := den_addr fit F C hS hr (sp := S.home) (.home hS)
      exact see_ask fit F C hH inv (B.rpc hr).server (acc_base fit F C hS) (asks_bind S hd)
        ((active_up fit F req hH inv hq hn hS).server hr)
    | @dial S a b x hc hr =>
      have B := F.services S (C.act S (C.called _ _ hc).1)
      obtain ⟨d, hd⟩ := den_dial fit F C hc hr
      refine cross_edge fit F C hH inv ⟨d, _, _, hd, look_node (B.rpc hr).dial, rfl, rfl, rfl⟩ ?_
      exact see_app fit F C hH inv (B.rpc hr).dial a _ ((calls_at fit F req hH inv hq hn hc).grpc hr).2

theorem dest_iff (a : Name) (t : Tree) : s.dest a = some t ↔ ∃ S, A.Active nodes S ∧ S.rpc = true ∧ a = S.addrN ∧
    t = S.servedTree (H S) := by
  have C := closed_of fit req
  have one : ∀ a t, s.dest a = some t → ∃ S, A.Active nodes S ∧ S.rpc = true ∧ a = S.addrN ∧ t = S.servedTree (H S) := by
    intro a t e7
    obtain ⟨V, h1, h2, h3, h4, _⟩ := dest_served fit F C hH inv e7
    exact ⟨V, h1, h2, h3, h4⟩
  constructor
  · exact one a t
  · rintro ⟨S, hS, hr, rfl, rfl⟩
    obtain ⟨d, hd⟩ := den_addr fit F C hS hr (sp := S.home) (.home hS)
    have hb : Binds w.env (Lawful w (A.Active nodes) (A.Calls nodes)) S.home S.serverN S.addrN := by
      have h0 := look_node ((F.services S (C.act S hS)).rpc hr).server
      have ha := acc_base fit F C hS
      cases hk : S.back with
      | true => rw [binder_back hk] at h0; exact .container h0 ha hd
      | false => rw [binder_front hk] at h0; exact .server h0 ha hd
    have hne := inv.dest S.home S.serverN S.addrN ((active_up fit F req hH inv hq hn hS).server hr) hb
    cases e : s.dest S.addrN with
    | none => exact absurd e hne
    | some t =>
      obtain ⟨V, hV, hVr, e1, e2⟩ := one _ _ e
      rw [names_one fit F C (C.act S hS) (C.act V hV) (addr_names hr) (e1 ▸ addr_names hVr), ← e2]

end

end Verif.Compile
