/-
C99: the SockShop's front end.
-/
import Verif.Frontend.Lemmas
namespace Verif.Frontend
open Verif.NoSQL
variable {F P : Type} [Host F] [Cart.Single P F] [Users.Lib] [Orders.Arith P] [Catalogue.Sql P]

private theorem carts_of {s : Shop F P} (h : Reached s) : ∃ cs : Cart.Carts P, Cart.Shows s.world.carts cs :=
  (Orders.reached_ok (reached_good h).1).1

/-- A change of one cart. -/
private theorem only_put {s : Shop F P} {cs : Cart.Carts P} (h : Cart.Shows s.world.carts cs) {carts : List (Doc F)} {c : Name}
    {l : List (Cart.Item P)} (h' : Cart.Shows carts (cs.put c l)) :
    OnlyCarts s { s with world := { s.world with carts } } [c] := by
  refine ⟨rfl, rfl, rfl, rfl, rfl, ?_⟩
  intro c' hc
  rw [get_cart h, get_cart (s := { s with world := { s.world with carts } }) h']
  simp only [List.mem_singleton] at hc
  simp [Cart.Carts.put, hc]

/-- C99: adding an item that is in the catalogue puts one more of it in the cart of the session, at the price in the
catalogue if there was none; without a session, in the cart of the new one, which is returned.  No other cart and nothing
else changes. -/
theorem C99_add (s : Shop F P) (hr : Reached s) (sessionID itemID uuid : Name) (hu : uuid ≠ []) (newId : Nat)
    (sock : Catalogue.Sock P) (hg : Catalogue.get s.catalogue itemID = .ok sock) (session : Name)
    (hs : session = if sessionID = [] then uuid else sessionID) :
    ∃ s' l, addItem noFails s sessionID itemID uuid newId = (s', session, .ok) ∧ getCart noFails s session = some l ∧
      getCart noFails s' session = some (Cart.added ⟨itemID, 1, sock.price⟩ l) ∧ OnlyCarts s s' [session] := by
  obtain ⟨cs, hc⟩ := carts_of hr
  have hid : sock.id = itemID := by
    rcases Catalogue.get_id (reached_good hr).2 (id := itemID) with e | ⟨t, e, ht⟩
    · rw [hg] at e; cases e
    · rw [hg] at e; cases e; exact ht
  have hne : session ≠ [] := by
    rw [hs]; split
    · exact hu
    · assumption
  obtain ⟨carts, e, h'⟩ := cart_ok hc newId (.addItem session ⟨sock.id, 1, sock.price⟩) trivial
  refine ⟨_, cs session, ?_, ?_, ?_, only_put hc h'⟩
  · unfold addItem
    simp only [noFails, Bool.false_eq_true, if_false, hg, ← hs, e]
  · rw [get_cart hc, if_neg hne]
  · rw [get_cart (s := { s with world := { s.world with carts } }) h', if_neg hne]
    simp [Cart.after, Cart.Carts.put, hid]

/-- C99: an item that is not in the catalogue is refused, and so is every call that does not end well: nothing has
changed then.  The session that the caller had is returned. -/
theorem C99_add_refused (s : Shop F P) (hr : Reached s) (fails : Fails) (sessionID itemID uuid : Name) (newId : Nat) :
    (Catalogue.get s.catalogue itemID = .error → (addItem fails s sessionID itemID uuid newId).2.2 = .error) ∧
    ((addItem fails s sessionID itemID uuid newId).2.2 ≠ .ok →
      addItem fails s sessionID itemID uuid newId = (s, if sessionID = [] then uuid else sessionID, .error)) := by
  obtain ⟨cs, hc⟩ := carts_of hr
  have hid := Catalogue.get_id (reached_good hr).2 (id := itemID)
  unfold addItem
  by_cases hf : fails 0
  · simp [hf]
  · simp only [hf, Bool.false_eq_true, if_false]
    rcases hid with e | ⟨t, e, -⟩
    · simp [e]
    · simp only [e]
      refine ⟨fun h => (by cases h), fun h => ?_⟩
      rw [cart_fails hc _ _ _ h]

/-- C99: setting the quantity of an item that is in the catalogue sets it, with the price in the catalogue, and takes
the item out of the cart if the quantity is not positive.  No other cart and nothing else changes. -/
theorem C99_update (s : Shop F P) (hr : Reached s) (sessionID itemID : Name) (hne : sessionID ≠ []) (quantity : Int) (newId : Nat)
    (sock : Catalogue.Sock P) (hg : Catalogue.get s.catalogue itemID = .ok sock) :
    ∃ s' l, updateItem noFails s sessionID itemID quantity newId = (s', sessionID, .ok) ∧
      getCart noFails s sessionID = some l ∧
      getCart noFails s' sessionID = some (Cart.updated ⟨itemID, quantity, sock.price⟩ l) ∧ OnlyCarts s s' [sessionID] := by
  obtain ⟨cs, hc⟩ := carts_of hr
  have hid : sock.id = itemID := by
    rcases Catalogue.get_id (reached_good hr).2 (id := itemID) with e | ⟨t, e, ht⟩
    · rw [hg] at e; cases e
    · rw [hg] at e; cases e; exact ht
  obtain ⟨carts, e, h'⟩ := cart_ok hc newId (.updateItem sessionID ⟨sock.id, quantity, sock.price⟩) trivial
  refine ⟨_, cs sessionID, ?_, ?_, ?_, only_put hc h'⟩
  · unfold updateItem
    simp only [noFails, Bool.false_eq_true, if_false, hg, e]
  · rw [get_cart hc, if_neg hne]
  · rw [get_cart (s := { s with world := { s.world with carts } }) h', if_neg hne]
    simp [Cart.after, Cart.Carts.put, hid]

/-- C99: an update that does not end well changes nothing; for an item that is not in the catalogue it does not. -/
theorem C99_update_refused (s : Shop F P) (hr : Reached s) (fails : Fails) (sessionID itemID : Name) (quantity : Int) (newId : Nat) :
    (Catalogue.get s.catalogue itemID = .error → (updateItem fails s sessionID itemID quantity newId).2.2 = .error) ∧
    ((updateItem fails s sessionID itemID quantity newId).2.2 ≠ .ok →
      updateItem fails s sessionID itemID quantity newId = (s, sessionID, .error)) := by
  obtain ⟨cs, hc⟩ := carts_of hr
  have hid := Catalogue.get_id (reached_good hr).2 (id := itemID)
  unfold updateItem
  by_cases hf : fails 0
  · simp [hf]
  · simp only [hf, Bool.false_eq_true, if_false]
    rcases hid with e | ⟨t, e, -⟩
    · simp [e]
    · simp only [e]
      refine ⟨fun h => (by cases h), fun h => ?_⟩
      rw [cart_fails hc _ _ _ h]

/-- C99: removing an item and deleting a cart do that, and nothing else; if they do not end well they do nothing.
Without a session there is nothing to show, to remove or to delete. -/
theorem C99_remove (s : Shop F P) (hr : Reached s) (sessionID itemID : Name) :
    (sessionID ≠ [] → ∃ s' l, removeItem noFails s sessionID itemID = (s', .ok) ∧ getCart noFails s sessionID = some l ∧
      getCart noFails s' sessionID = some (l.filter fun x => x.id ≠ itemID) ∧ OnlyCarts s s' [sessionID]) ∧
    (sessionID ≠ [] → ∃ s', deleteCart noFails s sessionID = (s', .ok) ∧
      getCart noFails s' sessionID = some [] ∧ OnlyCarts s s' [sessionID]) ∧
    (∀ fails, ((removeItem fails s sessionID itemID).2 ≠ .ok → removeItem fails s sessionID itemID = (s, .error)) ∧
      ((deleteCart fails s sessionID).2 ≠ .ok → deleteCart fails s sessionID = (s, .error))) ∧
    ∀ fails, getCart fails s [] = some [] ∧ removeItem fails s [] itemID = (s, .ok) ∧ deleteCart fails s [] = (s, .ok) := by
  obtain ⟨cs, hc⟩ := carts_of hr
  refine ⟨fun hne => ?_, fun hne => ?_, fun fails => ⟨fun h => ?_, fun h => ?_⟩, fun fails => ⟨rfl, rfl, rfl⟩⟩
  · obtain ⟨carts, e, h'⟩ := cart_ok hc 0 (.removeItem sessionID itemID) trivial
    refine ⟨_, cs sessionID, ?_, ?_, ?_, only_put hc h'⟩
    · unfold removeItem
      simp only [hne, noFails, if_false, e]
    · rw [get_cart hc, if_neg hne]
    · rw [get_cart (s := { s with world := { s.world with carts } }) h', if_neg hne]
      simp [Cart.after, Cart.Carts.put, Cart.removed]
  · obtain ⟨carts, e, h'⟩ := cart_ok hc 0 (.deleteCart sessionID) trivial
    refine ⟨_, ?_, ?_, only_put hc h'⟩
    · unfold deleteCart
      simp only [hne, noFails, if_false, e]
    · rw [get_cart (s := { s with world := { s.world with carts } }) h', if_neg hne]
      simp [Cart.after, Cart.Carts.put]
  · unfold removeItem at h ⊢
    split at h
    · exact absurd rfl h
    · next hne => rw [if_neg hne]; exact cart_fails hc _ _ _ h
  · unfold deleteCart at h ⊢
    split at h
    · exact absurd rfl h
    · next hne => rw [if_neg hne]; exact cart_fails hc _ _ _ h

/-! ### Accounts -/

/-- C99: a login succeeds only with a username and password that the user service accepts, and returns that user's
identifier as the new session.  A login that is not accepted leaves the session as it was, and a login that does not end well
changes nothing. -/
theorem C99_login_sound (s : Shop F P) (hr : Reached s) (fails : Fails) (sessionID username password : Name) (newId : Nat) :
    (∀ u, (login fails s sessionID username password newId).2.2.1 = some u →
      Users.login s.world.users username password = .user u ∧ (login fails s sessionID username password newId).2.1 = u.id) ∧
    ((login fails s sessionID username password newId).2.2.1 = none →
      (login fails s sessionID username password newId).2.1 = sessionID ∧
      (login fails s sessionID username password newId).2.2.2 ≠ .ok) ∧
    ((login fails s sessionID username password newId).2.2.2 ≠ .ok →
      (login fails s sessionID username password newId).1 = s) := by
  obtain ⟨cs, hc⟩ := carts_of hr
  unfold login
  by_cases hf : fails 0
  · simp [hf]
  · simp only [hf, Bool.false_eq_true, if_false]
    cases hl : Users.login s.world.users username password with
    | user u =>
      simp only []
      by_cases hn : sessionID = []
      · simp [hn]
      · simp only [ne_eq, hn, not_false_eq_true, if_true]
        refine ⟨fun u' h => ?_, fun h => (by cases h), fun h => ?_⟩
        · simp only [Option.some.injEq] at h
          subst h
          exact ⟨rfl, rfl⟩
        · rw [cart_fails hc _ _ _ h]
    | _ => simp

/-- The quantities of two carts together. -/
private theorem put_put {s : Shop F P} {cs : Cart.Carts P} (h : Cart.Shows s.world.carts cs) {carts : List (Doc F)} {c t : Name}
    {l m : List (Cart.Item P)} (h' : Cart.Shows carts ((cs.put c l).put t m)) :
    OnlyCarts s { s with world := { s.world with carts } } [c, t] := by
  refine ⟨rfl, rfl, rfl, rfl, rfl, ?_⟩
  intro c' hc
  rw [get_cart h, get_cart (s := { s with world := { s.world with carts } }) h']
  simp only [List.mem_cons, List.not_mem_nil, or_false, not_or] at hc
  simp [Cart.Carts.put, hc.1, hc.2]

/-- C99: after a login the user's cart has the items of the session's cart besides its own: of every item as many as
both had together; the session's cart is empty, and all other carts and everything else is as before.  Missing from the full
property: session carts that the cart service merges wrongly (C77) and a session that is the user's own
(`C99_relogin_refuted`). -/
theorem C99_login_merge_partial (s : Shop F P) (hr : Reached s) (sessionID username password : Name) (newId : Nat)
    (u : Users.User) (hl : Users.login s.world.users username password = .user u) (hs : sessionID ≠ []) (hu : u.id ≠ [])
    (hne : u.id ≠ sessionID) (customer session : List (Cart.Item P)) (h1 : getCart noFails s u.id = some customer)
    (h2 : getCart noFails s sessionID = some session)
    (ho : Cart.InOrder (Host.decodeRoom (F := F) customer.length) customer session) :
    ∃ s' l, login noFails s sessionID username password newId = (s', u.id, some u, .ok) ∧ getCart noFails s' u.id = some l ∧
      l = Cart.merged customer session ∧ getCart noFails s' sessionID = some [] ∧ OnlyCarts s s' [u.id, sessionID] := by
  obtain ⟨cs, hc⟩ := carts_of hr
  rw [get_cart hc, if_neg hu] at h1
  rw [get_cart hc, if_neg hs] at h2
  cases h1; cases h2
  obtain ⟨carts, e, h'⟩ := cart_ok hc newId (.mergeCarts u.id sessionID) ⟨hne, ho⟩
  refine ⟨_, _, ?_, ?_, rfl, ?_, put_put hc h'⟩
  · unfold login
    simp only [noFails, Bool.false_eq_true, if_false, hl, ne_eq, hs, not_false_eq_true, if_true, e]
  · rw [get_cart (s := { s with world := { s.world with carts } }) h', if_neg hu]
    simp [Cart.after, Cart.Carts.put, hne]
  · rw [get_cart (s := { s with world := { s.world with carts } }) h', if_neg hs]
    simp [Cart.after, Cart.Carts.put]

/-- C99 refuted: "Merges the session into the user": the session of a logged-in user is the user identifier, and a user who logs in
again with it loses everything that is in the cart, although the call succeeds. -/
theorem C99_relogin_refuted (s : Shop F P) (hr : Reached s) (username password : Name) (newId : Nat) (u : Users.User)
    (hl : Users.login s.world.users username password = .user u) (hu : u.id ≠ []) :
    ∃ s₁ s₂, login noFails s [] username password newId = (s₁, u.id, some u, .ok) ∧
      getCart noFails s₁ u.id = getCart noFails s u.id ∧
      login noFails s₁ u.id username password newId = (s₂, u.id, some u, .ok) ∧ getCart noFails s₂ u.id = some [] := by
  obtain ⟨cs, hc⟩ := carts_of hr
  obtain ⟨carts, e, h'⟩ := Cart.merge_self hc newId u.id
  refine ⟨s, { s with world := { s.world with carts } }, ?_, rfl, ?_, ?_⟩
  · simp [login, noFails, hl]
  · unfold login cartCall
    simp [noFails, hl, hu, Cart.call, e]
  · rw [get_cart (s := { s with world := { s.world with carts } }) h', if_neg hu]
    simp [Cart.Carts.put]

/-- C99 refuted: somebody who is logged in and logs in to another account takes along everything in the cart: the first
account's cart is empty afterwards, and the items are in the second one's.  (So can anyone who knows the identifier of a user, which
is all that the front end asks for.) -/
theorem C99_switch_refuted (s : Shop F P) (hr : Reached s) (victim username password : Name) (newId : Nat) (u : Users.User)
    (hl : Users.login s.world.users username password = .user u) (hu : u.id ≠ []) (hv : victim ≠ []) (hne : u.id ≠ victim)
    (he : getCart noFails s u.id = some []) (items : List (Cart.Item P)) (hi : getCart noFails s victim = some items) :
    ∃ s', login noFails s victim username password newId = (s', u.id, some u, .ok) ∧
      getCart noFails s' victim = some [] ∧ getCart noFails s' u.id = some items := by
  obtain ⟨s', l, h1, h2, h3, h4, -⟩ := C99_login_merge_partial s hr victim username password newId u hl hv hu hne [] items he hi
    (in_order_empty _ _)
  rw [merged_empty] at h3
  subst h3
  exact ⟨s', h1, h4, h2⟩

private theorem users_of {s : Shop F P} (h : Reached s) : ∃ b, Users.Rep b s.world.users :=
  (Orders.reached_ok (reached_good h).1).2

private theorem register_user (s : Shop F P) (fail : Bool) (p : Users.Person) (password salt : Name) :
    userCall fail s (.register p password salt) = if fail then (s, none) else
      ({ s with world := { s.world with users := { s.world.users with
          users := s.world.users.users ++ [⟨s.world.users.next, p, Users.Lib.hash password salt, salt, [], []⟩],
          next := s.world.users.next + 1 } } }, some (Users.Lib.hex s.world.users.next)) := by
  cases fail <;> rfl

private theorem found_user {s : Shop F P} (hr : Reached s) (u : Users.DbUser) (hu : u.id = s.world.users.next) :
    (s.world.users.users ++ [u]).find? (fun x => x.id = s.world.users.next) = some u := by
  obtain ⟨b, hb⟩ := users_of hr
  rw [List.find?_append, List.find?_eq_none.2]
  · simp [hu]
  · intro x hx
    rw [hb.users] at hx
    obtain ⟨a, ha, rfl⟩ := List.mem_map.1 hx
    have := (hb.accLt a ha).2
    have : (Users.row b a).id = a.id := rfl
    have := hb.next
    simp only [decide_eq_true_eq]
    omega

/-- C99: a registered user gets a new identifier, which is the new session, and under it the cart of the session: exactly
what was in it.  The session's cart is empty afterwards, and all other carts, the catalogue and the orders are as before. -/
theorem C99_register (s : Shop F P) (hr : Reached s) (sessionID : Name) (p : Users.Person) (password salt : Name) (newId : Nat)
    (hx : ∀ n, Users.Lib.hex n ≠ []) :
    ∃ s' u, register noFails s sessionID p password salt newId = (s', u, .ok) ∧
      (∀ a ∈ s.world.users.users, Users.Lib.hex a.id ≠ u) ∧
      getUser noFails s' u = some ⟨u, p, [], []⟩ ∧
      s'.catalogue = s.catalogue ∧ s'.world.orders = s.world.orders ∧
      s'.world.queue = s.world.queue ∧ s'.world.shipments = s.world.shipments ∧
      (u ≠ sessionID → getCart noFails s u = some [] →
        getCart noFails s' u = getCart noFails s sessionID ∧ getCart noFails s' sessionID = some []) ∧
      ∀ c, c ≠ u → c ≠ sessionID → getCart noFails s' c = getCart noFails s c := by
  obtain ⟨cs, hc⟩ := carts_of hr
  obtain ⟨b, hb⟩ := users_of hr
  generalize hw : ({ s.world.users with
          users := s.world.users.users ++ [⟨s.world.users.next, p, Users.Lib.hash password salt, salt, [], []⟩],
          next := s.world.users.next + 1 } : Users.State) = users'
  have hnew : ∀ a ∈ s.world.users.users, Users.Lib.hex a.id ≠ Users.Lib.hex s.world.users.next := by
    intro x hx' e
    have e2 := congrArg Users.Lib.fromHex e
    rw [Users.Lib.from_hex, Users.Lib.from_hex, Option.some.injEq] at e2
    rw [hb.users] at hx'
    obtain ⟨a, ha, rfl⟩ := List.mem_map.1 hx'
    have h1 := (hb.accLt a ha).2
    have h2 : (Users.row b a).id = a.id := rfl
    have h3 := hb.next
    omega
  have hget : ∀ carts, getUser noFails ({ s with world := { s.world with users := users', carts } } : Shop F P) (Users.Lib.hex s.world.users.next) =
      some ⟨Users.Lib.hex s.world.users.next, p, [], []⟩ := by
    intro carts
    unfold getUser Users.getUsers
    rw [if_neg (hx _), if_neg (by simp [noFails]), if_neg (hx _), Users.Lib.from_hex]
    simp only [← hw]
    rw [found_user hr _ rfl]
    rfl
  have hc1 : Cart.Shows ({ s with world := { s.world with users := users' } } : Shop F P).world.carts cs := hc
  unfold register
  simp only [register_user, noFails, Bool.false_eq_true, if_false, hw]
  by_cases hs : sessionID = []
  · subst hs
    simp only [ne_eq, not_true_eq_false, if_false]
    refine ⟨_, _, rfl, hnew, hget s.world.carts, rfl, rfl, rfl, rfl, ?_, fun _ _ _ => rfl⟩
    intro _ h
    exact ⟨h, rfl⟩
  · simp only [ne_eq, hs, not_false_eq_true, if_true]
    obtain ⟨carts, l, e, h'⟩ := Cart.merge_any hc newId (Users.Lib.hex s.world.users.next) sessionID
    have e2 : cartCall false ({ s with world := { s.world with users := users' } } : Shop F P) newId
        (.mergeCarts (Users.Lib.hex s.world.users.next) sessionID) =
        ({ s with world := { s.world with users := users', carts } }, .ok) := by
      unfold cartCall
      simp [Cart.call, e]
    rw [e2]
    refine ⟨_, _, rfl, hnew, hget carts, rfl, rfl, rfl, rfl, ?_, ?_⟩
    · intro h1 h2
      rw [get_cart hc, if_neg (hx _), Option.some.injEq] at h2
      obtain ⟨carts', e', h''⟩ := Cart.call_shows hc newId (.mergeCarts (Users.Lib.hex s.world.users.next) sessionID)
        ⟨h1, by rw [h2]; exact in_order_empty _ _⟩
      have : carts' = carts := by
        simp only [Cart.call, e] at e'
        exact (congrArg Prod.fst e').symm
      subst this
      refine ⟨?_, ?_⟩
      · rw [get_cart (cs := Cart.after cs _) h'', get_cart hc, if_neg (hx _), if_neg hs]
        simp [Cart.after, Cart.Carts.put, h1, h2, merged_empty]
      · rw [get_cart (cs := Cart.after cs _) h'', if_neg hs]
        simp [Cart.after, Cart.Carts.put]
    · intro c h1 h2
      rw [get_cart (cs := (cs.put _ l).put sessionID []) h', get_cart hc]
      simp [Cart.Carts.put, h1, h2]

/-- C99 refuted: `Register` returns an error, but the account has been made.  This happens if the carts cannot be merged; who tries
again makes a second account with the same name (see C79). -/
theorem C99_register_refuted (s : Shop F P) (hr : Reached s) (sessionID : Name) (hs : sessionID ≠ []) (p : Users.Person)
    (password salt : Name) (newId : Nat) (hx : ∀ n, Users.Lib.hex n ≠ []) (fails : Fails) (h0 : fails 0 = false) (h1 : fails 1 = true) :
    ∃ s' u, register fails s sessionID p password salt newId = (s', u, .error) ∧
      getUser noFails s' u = some ⟨u, p, [], []⟩ ∧ (∀ a ∈ s.world.users.users, Users.Lib.hex a.id ≠ u) ∧
      getCart noFails s' sessionID = getCart noFails s sessionID := by
  obtain ⟨s1, u, e, hn, hg, -⟩ := C99_register s hr [] p password salt newId hx
  unfold register at e ⊢
  simp only [register_user, noFails, h0, h1, Bool.false_eq_true, if_false, ne_eq, not_true_eq_false, hs, not_false_eq_true,
    if_true] at e ⊢
  cases e
  exact ⟨_, _, rfl, hg, hn, rfl⟩

private theorem next_addresses {s : Shop F P} (hr : Reached s) (e : Nat × Users.Address) (he : e ∈ s.world.users.addresses) :
    e.1 < s.world.users.next := by
  obtain ⟨b, hb⟩ := users_of hr
  rw [hb.addresses] at he
  obtain ⟨f, hf, rfl⟩ := List.mem_map.1 he
  have := hb.addrOk.lt f hf
  rw [hb.next]
  exact this

private theorem next_cards {s : Shop F P} (hr : Reached s) (e : Nat × Users.Card) (he : e ∈ s.world.users.cards) :
    e.1 < s.world.users.next := by
  obtain ⟨b, hb⟩ := users_of hr
  rw [hb.cards] at he
  obtain ⟨f, hf, rfl⟩ := List.mem_map.1 he
  have := hb.cardOk.lt f hf
  rw [hb.next]
  exact this

private theorem find_last {α : Type} (l : List (Nat × α)) (n : Nat) (h : ∀ e ∈ l, e.1 < n) (a : α) :
    (l ++ [(n, a)]).find? (fun e => e.1 = n) = some (n, a) := by
  rw [List.find?_append, List.find?_eq_none.2]
  · simp
  · intro x hx
    have := h x hx
    simp only [decide_eq_true_eq]
    omega

/-- C99: an address that is posted for a user is then found under the identifier that was returned; carts, catalogue,
orders and cards are as before. -/
theorem C99_post_address (s : Shop F P) (hr : Reached s) (n : Nat) (hx : ∀ n, Users.Lib.hex n ≠ []) (addr : Users.Address) :
    ∃ s' a, postAddress noFails s (Users.Lib.hex n) addr = (s', some a) ∧
      getAddress noFails s' a = some (a, addr) ∧
      (Users.Lib.fromHex a).isSome ∧ a ≠ [] ∧
      (∀ k, getCard noFails s' k = getCard noFails s k) ∧
      s'.catalogue = s.catalogue ∧ s'.world = { s.world with users := s'.world.users } := by
  unfold postAddress userCall
  simp only [noFails, Bool.false_eq_true, if_false, Users.call, Users.postAddress, if_neg (hx n), Users.Lib.from_hex]
  refine ⟨_, _, rfl, ?_, by simp [Users.Lib.from_hex], hx _, fun k => rfl, rfl, rfl⟩
  unfold getAddress Users.getAddresses Users.getById
  simp only [if_neg (hx _), noFails, Bool.false_eq_true, if_false, Users.Lib.from_hex]
  rw [find_last _ _ (next_addresses hr)]

/-- C99: a card that is posted for a user is then found under the identifier that was returned; carts, catalogue,
orders and addresses are as before. -/
theorem C99_post_card (s : Shop F P) (hr : Reached s) (n : Nat) (hx : ∀ n, Users.Lib.hex n ≠ []) (card : Users.Card) :
    ∃ s' a, postCard noFails s (Users.Lib.hex n) card = (s', some a) ∧
      getCard noFails s' a = some (a, card) ∧
      (Users.Lib.fromHex a).isSome ∧ a ≠ [] ∧
      (∀ k, getAddress noFails s' k = getAddress noFails s k) ∧
      s'.catalogue = s.catalogue ∧ s'.world = { s.world with users := s'.world.users } := by
  unfold postCard userCall
  simp only [noFails, Bool.false_eq_true, if_false, Users.call, Users.postCard, if_neg (hx n), Users.Lib.from_hex]
  refine ⟨_, _, rfl, ?_, by simp [Users.Lib.from_hex], hx _, fun k => rfl, rfl, rfl⟩
  unfold getCard Users.getCards Users.getById
  simp only [if_neg (hx _), noFails, Bool.false_eq_true, if_false, Users.Lib.from_hex]
  rw [find_last _ _ (next_cards hr)]

/-! ### Buying -/

private theorem only_trans {s s' s'' : Shop F P} {c : List Name} (h : OnlyCarts s s' c) (h' : OnlyCarts s' s'' c) :
    OnlyCarts s s'' c :=
  ⟨h'.1.trans h.1, h'.2.1.trans h.2.1, h'.2.2.1.trans h.2.2.1, h'.2.2.2.1.trans h.2.2.2.1, h'.2.2.2.2.1.trans h.2.2.2.2.1,
    fun x hx => (h'.2.2.2.2.2 x hx).trans (h.2.2.2.2.2 x hx)⟩

private theorem only_refl (s : Shop F P) (c : List Name) : OnlyCarts s s c := ⟨rfl, rfl, rfl, rfl, rfl, fun _ _ => rfl⟩

private theorem add_reached {s : Shop F P} (hr : Reached s) (c i u : Name) (n : Nat) : Reached (addItem noFails s c i u n).1 :=
  reached_step hr noFails (.addItem c i u n)

private theorem add_all (price : Name → P) (uuid : Name) (hu : uuid ≠ []) (rest : List (Name × Nat)) :
    ∀ (s : Shop F P) (sessionID session : Name) (done : List Name), Reached s →
      session = (if sessionID = [] then uuid else sessionID) →
      (rest = [] → sessionID ≠ []) → getCart noFails s session = some (wanted price done) →
      (∀ i ∈ rest, ∃ sock, Catalogue.get s.catalogue i.1 = .ok sock ∧ sock.price = price i.1) →
      ∃ s', addAll s sessionID uuid rest = (s', session) ∧ Reached s' ∧ OnlyCarts s s' [session] ∧
        getCart noFails s' session = some (wanted price (done ++ rest.map (·.1))) := by
  induction rest with
  | nil =>
    intro s sessionID session done hr hs hn hg _
    rw [if_neg (hn rfl)] at hs
    subst hs
    exact ⟨s, rfl, hr, only_refl _ _, by simpa using hg⟩
  | cons x rest ih =>
    intro s sessionID session done hr hs _ hg hcat
    obtain ⟨i, n⟩ := x
    obtain ⟨sock, h1, h2⟩ := hcat (i, n) List.mem_cons_self
    obtain ⟨s1, l, e, hl, hl', ho⟩ := C99_add s hr sessionID i uuid hu n sock h1 session hs
    rw [hg] at hl
    cases hl
    simp only at h2
    rw [h2, added_wanted] at hl'
    have hr1 : Reached s1 := by
      have := add_reached hr sessionID i uuid n
      rw [e] at this
      exact this
    have hne : session ≠ [] := by
      rw [hs]; split
      · exact hu
      · assumption
    obtain ⟨s2, e2, hr2, ho2, hg2⟩ := ih s1 session session (done ++ [i]) hr1 (by rw [if_neg hne]) (fun _ => hne) hl'
      (fun j hj => by rw [ho.1]; exact hcat j (List.mem_cons_of_mem _ hj))
    refine ⟨s2, ?_, hr2, only_trans ho ho2, ?_⟩
    · simp only [addAll, e, e2]
    · rw [hg2]; simp

/-- C99: what a visitor puts in the cart without being logged in is what is in the cart of the one session that the
calls return: each item as often as it was added, at the price in the catalogue. -/
theorem C99_visitor (s : Shop F P) (hr : Reached s) (price : Name → P) (items : List (Name × Nat)) (hne : items ≠ [])
    (hcat : ∀ i ∈ items, ∃ sock, Catalogue.get s.catalogue i.1 = .ok sock ∧ sock.price = price i.1)
    (uuid : Name) (hu : uuid ≠ []) (hfresh : getCart noFails s uuid = some []) :
    ∃ s', addAll s [] uuid items = (s', uuid) ∧ getCart noFails s' uuid = some (wanted price (items.map (·.1))) ∧
      OnlyCarts s s' [uuid] := by
  obtain ⟨s', e, -, ho, hg⟩ := add_all price uuid hu items s [] uuid [] hr (by simp) (fun h => absurd h hne) hfresh hcat
  exact ⟨s', e, by simpa using hg, ho⟩

private theorem get_items' {s : Shop F P} (hr : Reached s) {c : Name} (hc : c ≠ []) {l : List (Cart.Item P)}
    (h : getCart noFails s c = some l) : Cart.getCartItems s.world.carts c = .items l := by
  obtain ⟨cs, hs⟩ := carts_of hr
  rw [get_cart hs, if_neg hc, Option.some.injEq] at h
  rw [Cart.get_items hs, h]

private theorem get_cart' {s : Shop F P} {c : Name} (hc : c ≠ []) {l : List (Cart.Item P)}
    (h : Cart.getCartItems s.world.carts c = .items l) : getCart noFails s c = some l := by
  unfold getCart
  rw [if_neg hc, if_neg (by simp [noFails]), h]

private theorem cart_congr {s s' : Shop F P} {c : Name}
    (h : Cart.getCartItems (P := P) s'.world.carts c = Cart.getCartItems s.world.carts c) :
    getCart noFails s' c = getCart noFails s c := by
  unfold getCart
  rw [h]

/-- C99: a visitor puts items in the cart, registers, gives an address and a card and orders.  The order then has
exactly those items, each as often as it was added and at the price in the catalogue, the address and the card; its total is the
price of those items and the shipping; and it is found by its identifier and as the last order of the new user.  Afterwards
both carts are empty, and the catalogue and all other carts are as before.  This holds in every state of the shop, for any items in
the catalogue whose price is acceptable; the identifiers of the session, of the next account and of the order must not have been
used yet. -/
theorem C99_purchase (s : Shop F P) (hr : Reached s) (hx : ∀ n, Users.Lib.hex n ≠ []) (price : Name → P)
    (items : List (Name × Nat)) (hne : items ≠ [])
    (hcat : ∀ i ∈ items, ∃ sock, Catalogue.get s.catalogue i.1 = .ok sock ∧ sock.price = price i.1)
    (uuid : Name) (hu : uuid ≠ []) (hfresh : getCart noFails s uuid = some [])
    (hnew : getCart noFails s (Users.Lib.hex s.world.users.next) = some []) (hn : Users.Lib.hex s.world.users.next ≠ uuid)
    (p : Users.Person) (password salt : Name) (newId : Nat) (addr : Users.Address) (card : Users.Card) (limit : P)
    (orderId date : Name) (hp : Orders.Acceptable limit (Orders.priceOf (wanted price (items.map (·.1)))))
    (ho : ∀ o ∈ s.world.orders, o.id ≠ orderId) :
    ∃ s₁ s₂ s₃ s₄ s₅ u a c o,
      addAll s [] uuid items = (s₁, uuid) ∧
      register noFails s₁ uuid p password salt newId = (s₂, u, .ok) ∧
      postAddress noFails s₂ u addr = (s₃, some a) ∧
      postCard noFails s₃ u card = (s₄, some c) ∧
      newOrder s₄ limit ⟨u, a, c, u⟩ Orders.Faults.none orderId date = (s₅, .placed o) ∧
      o.items = wanted price (items.map (·.1)) ∧ o.total = Orders.priceOf (wanted price (items.map (·.1))) ∧
      o.id = orderId ∧ o.customerID = u ∧ o.address = (a, addr) ∧ o.card = (c, card) ∧
      getOrder noFails s₅ orderId = some o ∧
      getOrders noFails s₅ u = some (s.world.orders.filter (fun o => o.customerID = u) ++ [o]) ∧
      getCart noFails s₅ u = some [] ∧ getCart noFails s₅ uuid = some [] ∧
      (∀ c, c ≠ u → c ≠ uuid → getCart noFails s₅ c = getCart noFails s c) ∧ s₅.catalogue = s.catalogue := by
  obtain ⟨s1, e1, hr1, ho1, hg1⟩ := add_all price uuid hu items s [] uuid [] hr (by simp) (fun h => absurd h hne) hfresh hcat
  simp only [List.nil_append] at hg1
  have hu1 : s1.world.users.next = s.world.users.next := by rw [ho1.2.1]
  have hnew1 : getCart noFails s1 (Users.Lib.hex s.world.users.next) = some [] := by
    rw [ho1.2.2.2.2.2 _ (by simpa using hn), hnew]
  obtain ⟨s2, u, e2, -, -, hc2, hor2, -, -, hm2, hk2⟩ := C99_register s1 hr1 uuid p password salt newId hx
  have hr2 : Reached s2 := by
    have := reached_step hr1 noFails (.register uuid p password salt newId)
    simp only [call, e2] at this
    exact this
  have hun : u = Users.Lib.hex s.world.users.next := by
    have := congrArg (fun x => x.2.1) e2
    simp only [register, register_user, noFails, Bool.false_eq_true, if_false, ne_eq, hu, not_false_eq_true, if_true, hu1] at this
    exact this.symm
  have hu' : u ≠ [] := by rw [hun]; exact hx _
  obtain ⟨hm2a, hm2b⟩ := hm2 (by rw [hun]; exact hn) (by rw [hun]; exact hnew1)
  rw [hg1] at hm2a
  obtain ⟨s3, a, e3, g3, f3, n3, -, c3, w3⟩ := C99_post_address s2 hr2 s.world.users.next hx addr
  rw [← hun] at e3
  have hr3 : Reached s3 := by
    have := reached_step hr2 noFails (.postAddress u addr)
    simp only [call, e3] at this
    exact this
  obtain ⟨s4, c, e4, g4, f4, n4, k4, c4, w4⟩ := C99_post_card s3 hr3 s.world.users.next hx card
  rw [← hun] at e4
  have hr4 : Reached s4 := by
    have := reached_step hr3 noFails (.postCard u card)
    simp only [call, e4] at this
    exact this
  have hw4 : s4.world.carts = s2.world.carts ∧ s4.world.orders = s2.world.orders := by rw [w4, w3]; exact ⟨rfl, rfl⟩
  have hcart : ∀ x, getCart noFails s4 x = getCart noFails s2 x := fun x => cart_congr (by rw [hw4.1])
  have hi4 := get_items' hr4 hu' ((hcart u).trans hm2a)
  have hwne : wanted price (items.map (·.1)) ≠ [] := by
    cases items with
    | nil => exact absurd rfl hne
    | cons x xs => simp [wanted, once]
  obtain ⟨o, hpl⟩ := (Orders.C80_accepted_iff s4.world (reached_good hr4).1 limit ⟨u, a, c, u⟩ orderId date).2
    ⟨⟨hu', n3, n4, hu'⟩, by rw [hun]; simp [Users.Lib.from_hex], f3, f4, _, hi4, hwne, hp⟩
  obtain ⟨⟨h1, -, h3, h4, h5, -, h7, h8, -⟩, w5, e5, o5, -, -, -, cu5, co5⟩ :=
    Orders.C80_placed s4.world (reached_good hr4).1 limit ⟨u, a, c, u⟩ _ orderId date o hpl
  rw [hi4] at h1
  simp only [Cart.Reply.items.injEq] at h1
  have haddr : o.address = (a, addr) := by
    have := (k4 a).trans g3
    unfold getAddress at this
    rw [if_neg n3, if_neg (by simp [noFails]), h3] at this
    simpa using this
  have hcard : o.card = (c, card) := by
    have := g4
    unfold getCard at this
    rw [if_neg n4, if_neg (by simp [noFails]), h4] at this
    simpa using this
  have hor : w5.orders = s.world.orders ++ [o] := by rw [o5, hw4.2, hor2, ho1.2.2.1]
  refine ⟨s1, s2, s3, s4, { s4 with world := w5 }, u, a, c, o, e1, e2, e3, e4, ?_, h1.symm, by rw [h5, h1], h7, h8, haddr, hcard,
    ?_, ?_, get_cart' hu' cu5, ?_, ?_, ?_⟩
  · unfold newOrder
    simp only [e5, hpl]
  · unfold getOrder Orders.getOrder
    simp only [noFails, Bool.false_eq_true, if_false, hor, List.find?_append]
    rw [List.find?_eq_none.2 (by simpa using ho)]
    simp [h7]
  · unfold getOrders Orders.getOrders
    simp only [noFails, Bool.false_eq_true, if_false, hor, List.filter_append, if_neg hu']
    simp [h8]
  · rw [cart_congr (s := s4) (co5 uuid (by rw [hun]; exact fun e => hn e.symm)), hcart, hm2b]
  · intro x h1 h2
    rw [cart_congr (s := s4) (co5 x h1), hcart, hk2 x h1 h2, ho1.2.2.2.2.2 x (by simpa using h2)]
  · show s4.catalogue = _
    rw [c4, c3, hc2, ho1.1]

/-! ### What does not hold -/

/-- C99 refuted: `UpdateItem`: "If there is no user or session, then a session is created and the sessionID is returned": no
session is created.  The call succeeds and returns the empty session, whose cart is always shown as empty: the item is lost. -/
theorem C99_update_refuted (s : Shop F P) (hr : Reached s) (itemID : Name) (quantity : Int) (newId : Nat)
    (sock : Catalogue.Sock P) (hg : Catalogue.get s.catalogue itemID = .ok sock) :
    ∃ s', updateItem noFails s [] itemID quantity newId = (s', [], .ok) ∧
      ∀ c, getCart noFails s' c = getCart noFails s c := by
  obtain ⟨cs, hc⟩ := carts_of hr
  obtain ⟨carts, e, h'⟩ := cart_ok hc newId (.updateItem [] ⟨sock.id, quantity, sock.price⟩) trivial
  refine ⟨{ s with world := { s.world with carts } }, ?_, ?_⟩
  · unfold updateItem
    simp only [noFails, Bool.false_eq_true, if_false, hg, e]
  · intro c
    rw [get_cart (s := { s with world := { s.world with carts } }) h', get_cart hc]
    by_cases hn : c = []
    · simp [hn]
    · simp [hn, Cart.after, Cart.Carts.put]

/-- C99 refuted: looking up a user, an address or a card that does not exist gives no error ("invalid userID") but a blank
one. -/
theorem C99_unknown_refuted (s : Shop F P) (n : Nat) (hn : Users.Lib.hex n ≠ []) :
    ((∀ u ∈ s.world.users.users, u.id ≠ n) → getUser noFails s (Users.Lib.hex n) = some ⟨Users.Lib.hex 0, ⟨[], [], [], []⟩, [], []⟩) ∧
    ((∀ a ∈ s.world.users.addresses, a.1 ≠ n) →
      getAddress noFails s (Users.Lib.hex n) = some (Users.Lib.hex 0, ⟨[], [], [], [], []⟩)) ∧
    ((∀ c ∈ s.world.users.cards, c.1 ≠ n) → getCard noFails s (Users.Lib.hex n) = some (Users.Lib.hex 0, ⟨[], [], []⟩)) := by
  refine ⟨fun h => ?_, fun h => ?_, fun h => ?_⟩
  · unfold getUser Users.getUsers
    simp only [if_neg hn, noFails, Bool.false_eq_true, if_false, Users.Lib.from_hex]
    rw [List.find?_eq_none.2 (by simpa using h)]
    rfl
  · unfold getAddress Users.getAddresses Users.getById
    simp only [if_neg hn, noFails, Bool.false_eq_true, if_false, Users.Lib.from_hex]
    rw [List.find?_eq_none.2 (by simpa using h)]
    rfl
  · unfold getCard Users.getCards Users.getById
    simp only [if_neg hn, noFails, Bool.false_eq_true, if_false, Users.Lib.from_hex]
    rw [List.find?_eq_none.2 (by simpa using h)]
    rfl

/-- C99 refuted: an item that is already in the cart keeps the price it had when it was first added, however the catalogue has
changed since: one more of it is added at the old price, also when the call that adds it reads a new price. -/
theorem C99_price_refuted (s : Shop F P) (hr : Reached s) (sessionID itemID uuid : Name) (hs : sessionID ≠ []) (newId : Nat)
    (sock : Catalogue.Sock P) (hg : Catalogue.get s.catalogue itemID = .ok sock) (l : List (Cart.Item P))
    (hl : getCart noFails s sessionID = some l) (x : Cart.Item P) (hi : x ∈ l) (hx : x.id = itemID) :
    ∃ s' l', addItem noFails s sessionID itemID uuid newId = (s', sessionID, .ok) ∧ getCart noFails s' sessionID = some l' ∧
      ⟨itemID, x.quantity + 1, x.price⟩ ∈ l' ∧ ∀ y ∈ l', y.id = itemID → y.price = x.price := by
  obtain ⟨cs, hc⟩ := carts_of hr
  have hn : (l.map (·.id)).Nodup := by
    rw [get_cart hc, if_neg hs] at hl
    cases hl
    exact hc.nodup _
  have huniq : ∀ y ∈ l, y.id = itemID → y = x := by
    intro y hy hyi
    clear hl
    induction l with
    | nil => cases hy
    | cons z l ih =>
      rw [List.map_cons, List.nodup_cons] at hn
      rcases List.mem_cons.1 hy with h1 | h1 <;> rcases List.mem_cons.1 hi with h2 | h2
      · rw [h1, h2]
      · exact absurd (List.mem_map.2 ⟨x, h2, by rw [hx, ← hyi, h1]⟩) hn.1
      · exact absurd (List.mem_map.2 ⟨y, h1, by rw [hyi, ← hx, h2]⟩) hn.1
      · exact ih h2 hn.2 h1
  have key : ∃ s', addItem noFails s sessionID itemID uuid newId = (s', sessionID, .ok) ∧
      getCart noFails s' sessionID = some (Cart.added ⟨itemID, 1, sock.price⟩ l) := by
    have hid : sock.id = itemID := by
      rcases Catalogue.get_id (reached_good hr).2 (id := itemID) with e | ⟨t, e, ht⟩
      · rw [hg] at e; cases e
      · rw [hg] at e; cases e; exact ht
    obtain ⟨carts, e, h'⟩ := cart_ok hc newId (.addItem sessionID ⟨sock.id, 1, sock.price⟩) trivial
    rw [get_cart hc, if_neg hs] at hl
    cases hl
    refine ⟨{ s with world := { s.world with carts } }, ?_, ?_⟩
    · unfold addItem
      simp only [noFails, Bool.false_eq_true, if_false, hg, hs, e]
    · rw [get_cart (s := { s with world := { s.world with carts } }) h', if_neg hs]
      simp [Cart.after, Cart.Carts.put, hid]
  obtain ⟨s', e, hg'⟩ := key
  have hin : (Cart.inCart itemID l).isSome := Cart.in_cart_is_some.2 ⟨x, hi, hx⟩
  obtain ⟨y, hy⟩ := Option.isSome_iff_exists.1 hin
  refine ⟨s', _, e, hg', ?_, ?_⟩
  · unfold Cart.added
    simp only [hy]
    refine List.mem_map.2 ⟨x, hi, ?_⟩
    rw [if_pos hx, ← hx]
  · unfold Cart.added
    simp only [hy]
    intro z hz hzi
    obtain ⟨w, hw, rfl⟩ := List.mem_map.1 hz
    split at hzi
    · next h => rw [if_pos h]; exact congrArg (·.price) (huniq w hw h)
    · next h => exact absurd hzi h

/-- C99 refuted: the quantity in stock, which the catalogue shows, has no meaning: whatever is ordered, the catalogue stays as it is,
and an item of which there are none in stock is added to the cart like any other (as `C99_purchase` says, to be ordered). -/
theorem C99_stock_refuted (s : Shop F P) (hr : Reached s) (sessionID itemID uuid : Name) (hs : sessionID ≠ []) (newId : Nat)
    (sock : Catalogue.Sock P) (hg : Catalogue.get s.catalogue itemID = .ok sock) (_ : sock.quantity ≤ 0)
    (hl : getCart noFails s sessionID = some []) :
    (∃ s', addItem noFails s sessionID itemID uuid newId = (s', sessionID, .ok) ∧
      getCart noFails s' sessionID = some [⟨itemID, 1, sock.price⟩]) ∧
    ∀ limit q flt id date, (newOrder s limit q flt id date).1.catalogue = s.catalogue := by
  refine ⟨?_, fun _ _ _ _ _ => rfl⟩
  obtain ⟨s', l, e, h1, h2, -⟩ := C99_add s hr sessionID itemID ['x'] (by simp) newId sock hg sessionID (by rw [if_neg hs])
  rw [hl] at h1
  cases h1
  refine ⟨s', ?_, h2⟩
  rw [← e]
  unfold addItem
  simp only [if_neg hs]

/-- C99: a page that shows a cart, a user, an address, a card or orders shows what the service behind it has, and is an error whenever the
call of that service fails; without an identifier there is no call, and an error (for a cart: no items). -/
theorem C99_reads (s : Shop F P) (fails : Fails) (id : Name) :
    (fails 0 = true → (id ≠ [] → getCart fails s id = none) ∧ getUser fails s id = none ∧ getAddress fails s id = none ∧
      getCard fails s id = none ∧ getOrder fails s id = none ∧ getOrders fails s id = none) ∧
    (getUser fails s [] = none ∧ getAddress fails s [] = none ∧ getCard fails s [] = none ∧ getOrders fails s [] = none ∧
      getCart fails s [] = some []) ∧
    (fails 0 = false → getOrder fails s id = Orders.getOrder s.world id ∧
      (id ≠ [] → getOrders fails s id = some (Orders.getOrders s.world id) ∧
        (∀ l, getCart fails s id = some l ↔ Cart.getCartItems s.world.carts id = .items l) ∧
        (∀ u, getUser fails s id = some u ↔ ∃ us, Users.getUsers s.world.users id = .users (u :: us)) ∧
        (∀ a, getAddress fails s id = some a ↔ ∃ as, Users.getAddresses s.world.users id = .addresses (a :: as)) ∧
        ∀ c, getCard fails s id = some c ↔ ∃ cs, Users.getCards s.world.users id = .cards (c :: cs))) := by
  refine ⟨fun hf => ?_, ?_, fun hf => ⟨?_, fun hi => ⟨?_, ?_, ?_, ?_, ?_⟩⟩⟩
  · simp [getCart, getUser, getAddress, getCard, getOrder, getOrders, hf]
  · simp [getCart, getUser, getAddress, getCard, getOrders]
  · simp [getOrder, hf]
  · simp [getOrders, hf, hi]
  · intro l
    simp only [getCart, hf, hi, if_false, Bool.false_eq_true]
    split
    · next l' e => rw [e]; simp
    · next e => constructor
                · intro h; cases h
                · intro h; exact absurd h (e l)
  · intro u
    simp only [getUser, hf, hi, if_false, Bool.false_eq_true]
    split
    · next u' us e => rw [e]; simp
    · next e => constructor
                · intro h; cases h
                · rintro ⟨us, h⟩; exact absurd h (e u us)
  · intro u
    simp only [getAddress, hf, hi, if_false, Bool.false_eq_true]
    split
    · next u' us e => rw [e]; simp
    · next e => constructor
                · intro h; cases h
                · rintro ⟨us, h⟩; exact absurd h (e u us)
  · intro u
    simp only [getCard, hf, hi, if_false, Bool.false_eq_true]
    split
    · next u' us e => rw [e]; simp
    · next e => constructor
                · intro h; cases h
                · rintro ⟨us, h⟩; exact absurd h (e u us)

end Verif.Frontend
