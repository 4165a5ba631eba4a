import Verif.Orders.Spec
import Verif.Cart.Props
import Verif.Users.Props
/-
C80, C81: orders in the SockShop.
-/
namespace Verif.Orders
open Verif.NoSQL
variable {F P : Type} [Host F] [Cart.Single P F] [Users.Lib] [Arith P]

/-! ### Reachable states -/

/-- The carts and the users are in order. -/
def Ok (w : World F P) : Prop := (∃ s : Cart.Carts P, Cart.Shows w.carts s) ∧ ∃ b, Users.Rep b w.users

private theorem total_loop (amount : P) (items : List (Cart.Item P)) :
    totalLoop amount items = (items.map fun x => Arith.mul (Arith.ofInt x.quantity) x.price).foldl Arith.add amount := by
  induction items generalizing amount with
  | nil => rfl
  | cons x xs ih => simp only [totalLoop, List.map_cons, List.foldl_cons, ih]

private theorem calculate_total (items : List (Cart.Item P)) : calculateTotal items = priceOf items := by
  simp only [calculateTotal, priceOf, total_loop]

private theorem authorise_some (limit amount : P) (b : Bool) :
    authorise limit amount = some b ↔
      Arith.eq amount (Arith.zero : P) = false ∧ Arith.lt amount (Arith.zero : P) = false ∧ Arith.le amount limit = b := by
  unfold authorise
  cases Arith.eq amount (Arith.zero : P) <;> cases Arith.lt amount (Arith.zero : P) <;> simp

private theorem authorise_true (limit amount : P) : authorise limit amount = some true ↔ Acceptable limit amount :=
  authorise_some limit amount true

/-- The cases of the second half. -/
private theorem finish_cases (w : World F P) (hw : Ok w) (limit : P) (q : Request) (flt : Faults) (uuid date : Name)
    (f : Fetched P) :
    (finish w limit q flt uuid date f = (w, .error) ∧
      (¬ Acceptable limit (priceOf f.items) ∨ flt.authorise = true ∨ flt.push ≠ .yes)) ∨
    (Acceptable limit (priceOf f.items) ∧ flt.authorise = false ∧ flt.push = .yes ∧
      ((flt.insertShipment = true ∧ finish w limit q flt uuid date f =
          ({ w with queue := w.queue ++ [⟨uuid, q.customerID, awaiting⟩] }, .error)) ∨
       (flt.insertShipment = false ∧ flt.insertOrder = true ∧ finish w limit q flt uuid date f =
          ({ w with queue := w.queue ++ [⟨uuid, q.customerID, awaiting⟩],
                    shipments := w.shipments ++ [⟨uuid, q.customerID, awaiting⟩] }, .error)) ∨
       (flt.insertShipment = false ∧ flt.insertOrder = false ∧
          (finish w limit q flt uuid date f).1.queue = w.queue ++ [⟨uuid, q.customerID, awaiting⟩] ∧
          (finish w limit q flt uuid date f).1.shipments = w.shipments ++ [⟨uuid, q.customerID, awaiting⟩] ∧
          (finish w limit q flt uuid date f).1.users = w.users ∧
          (finish w limit q flt uuid date f).1.orders = w.orders ++ [⟨uuid, q.customerID, f.address, f.card, f.items,
            ⟨uuid, q.customerID, awaiting⟩, date, priceOf f.items⟩] ∧
          ((flt.deleteCart = true ∧ (finish w limit q flt uuid date f).1.carts = w.carts ∧
              (finish w limit q flt uuid date f).2 = .placedError ⟨uuid, q.customerID, f.address, f.card, f.items,
                ⟨uuid, q.customerID, awaiting⟩, date, priceOf f.items⟩) ∨
           (flt.deleteCart = false ∧
              (∃ s : Cart.Carts P, Cart.Shows w.carts s ∧
                Cart.Shows (finish w limit q flt uuid date f).1.carts (s.put q.customerID [])) ∧
              (finish w limit q flt uuid date f).2 = .placed ⟨uuid, q.customerID, f.address, f.card, f.items,
                ⟨uuid, q.customerID, awaiting⟩, date, priceOf f.items⟩))))) := by
  unfold finish
  simp only [calculate_total]
  cases ha : flt.authorise with
  | true => exact .inl ⟨by simp, .inr (.inl rfl)⟩
  | false =>
    simp only [Bool.false_eq_true, if_false]
    cases hz : authorise limit (priceOf f.items) with
    | none =>
      refine .inl ⟨rfl, .inl fun h => ?_⟩
      rw [(authorise_true _ _).2 h] at hz
      cases hz
    | some b =>
      cases b with
      | false =>
        refine .inl ⟨rfl, .inl fun h => ?_⟩
        rw [(authorise_true _ _).2 h] at hz
        cases hz
      | true =>
        simp only []
        have hacc := (authorise_true _ _).1 hz
        cases hp : flt.push with
        | error => exact .inl ⟨rfl, .inr (.inr (by simp))⟩
        | no => exact .inl ⟨rfl, .inr (.inr (by simp))⟩
        | yes =>
          simp only []
          refine .inr ⟨hacc, trivial, trivial, ?_⟩
          cases flt.insertShipment with
          | true => exact .inl ⟨by simp, rfl⟩
          | false =>
            simp only [Bool.false_eq_true, if_false]
            cases flt.insertOrder with
            | true => exact .inr (.inl ⟨by simp, by simp, rfl⟩)
            | false =>
              simp only [Bool.false_eq_true, if_false]
              refine .inr (.inr ⟨by simp, by simp, ?_⟩)
              cases flt.deleteCart with
              | true => exact ⟨rfl, rfl, rfl, rfl, .inl ⟨by simp, rfl, rfl⟩⟩
              | false =>
                obtain ⟨⟨s, hs⟩, _⟩ := hw
                obtain ⟨db', e, h'⟩ := Cart.shows_delete hs q.customerID
                simp only [Bool.false_eq_true, if_false]
                rw [e]
                exact ⟨rfl, rfl, rfl, rfl, .inr ⟨by simp, ⟨s, hs, h'⟩, rfl⟩⟩

private theorem new_cases (w : World F P) (limit : P) (q : Request) (flt : Faults) (uuid date : Name) :
    newOrder w limit q flt uuid date = (w, .error) ∨
      ∃ f, fetch w q flt = some f ∧ newOrder w limit q flt uuid date = finish w limit q flt uuid date f := by
  unfold newOrder
  cases fetch w q flt with
  | none => exact .inl rfl
  | some f => exact .inr ⟨f, rfl, rfl⟩

private theorem ok_call (w : World F P) (h : Ok w) (o : Op P) : Ok (call w o).1 := by
  obtain ⟨⟨s, hs⟩, ⟨b, hb⟩⟩ := h
  cases o with
  | cart n o => exact ⟨Cart.call_keeps hs n o, ⟨b, hb⟩⟩
  | user o => exact ⟨⟨s, hs⟩, ⟨_, Users.call_rep hb o⟩⟩
  | ship =>
    simp only [call, ship]
    split <;> exact ⟨⟨s, hs⟩, ⟨b, hb⟩⟩
  | getOrder _ => exact ⟨⟨s, hs⟩, ⟨b, hb⟩⟩
  | getOrders _ => exact ⟨⟨s, hs⟩, ⟨b, hb⟩⟩
  | order limit q flt uuid date =>
    show Ok (newOrder w limit q flt uuid date).1
    rcases new_cases w limit q flt uuid date with e | ⟨f, -, e⟩
    · rw [e]; exact ⟨⟨s, hs⟩, ⟨b, hb⟩⟩
    · rw [e]
      rcases finish_cases w ⟨⟨s, hs⟩, ⟨b, hb⟩⟩ limit q flt uuid date f with
        ⟨e, -⟩ | ⟨-, -, -, ⟨-, e⟩ | ⟨-, -, e⟩ | ⟨-, -, -, -, hu, -, ⟨-, hc, -⟩ | ⟨-, ⟨s', -, hc⟩, -⟩⟩⟩
      · rw [e]; exact ⟨⟨s, hs⟩, ⟨b, hb⟩⟩
      · rw [e]; exact ⟨⟨s, hs⟩, ⟨b, hb⟩⟩
      · rw [e]; exact ⟨⟨s, hs⟩, ⟨b, hb⟩⟩
      · refine ⟨⟨s, by rw [hc]; exact hs⟩, ⟨b, by rw [hu]; exact hb⟩⟩
      · refine ⟨⟨_, hc⟩, ⟨b, by rw [hu]; exact hb⟩⟩

private theorem ok_calls (hist : List (Op P)) (w : World F P) (h : Ok w) : Ok (calls w hist).1 := by
  induction hist generalizing w with
  | nil => exact h
  | cons o os ih => exact ih _ (ok_call w h o)

theorem ok_init : Ok (World.init : World F P) := ⟨⟨_, Cart.shows_empty⟩, ⟨_, Users.rep_init⟩⟩

theorem reached_ok {w : World F P} (h : Reached w) : Ok w := by
  obtain ⟨hist, rfl⟩ := h
  exact ok_calls hist _ ok_init

theorem reached_call {w : World F P} (h : Reached w) (o : Op P) : Reached (call w o).1 := by
  obtain ⟨hist, rfl⟩ := h
  refine ⟨hist ++ [o], ?_⟩
  generalize (World.init : World F P) = w0
  induction hist generalizing w0 with
  | nil => rfl
  | cons x xs ih => exact ih _

private theorem fetch_some {w : World F P} {q : Request} {flt : Faults} {f : Fetched P} (h : fetch w q flt = some f) :
    (q.customerID ≠ [] ∧ q.addressID ≠ [] ∧ q.cardID ≠ [] ∧ q.cartID ≠ []) ∧
    (flt.getCart = false ∧ flt.getUsers = false ∧ flt.getAddresses = false ∧ flt.getCards = false) ∧
    Cart.getCartItems w.carts q.cartID = .items f.items ∧ f.items ≠ [] ∧
    (∃ u us, Users.getUsers w.users q.customerID = .users (u :: us)) ∧
    (∃ as, Users.getAddresses w.users q.addressID = .addresses (f.address :: as)) ∧
    (∃ cs, Users.getCards w.users q.cardID = .cards (f.card :: cs)) := by
  unfold fetch at h
  split at h; · simp at h
  split at h; · simp at h
  split at h; · simp at h
  split at h; · simp at h
  split at h; · simp at h
  rename_i h1 h2 h3 h4 h5
  simp only [Bool.or_eq_true, not_or, Bool.not_eq_true] at h5
  refine ⟨⟨h1, h2, h3, h4⟩, ⟨h5.1.1.1, h5.1.1.2, h5.1.2, h5.2⟩, ?_⟩
  split at h
  · rename_i items users addresses cards e1 e2 e3 e4
    split at h; · simp at h
    split at h; · simp at h
    rename_i h6 h7
    split at h
    · cases h
      refine ⟨e1, ?_, ?_, ⟨_, e3⟩, ⟨_, e4⟩⟩
      · exact fun e => h6 (List.length_eq_zero_iff.2 e)
      · cases users with
        | nil => simp at h7
        | cons u us => exact ⟨u, us, e2⟩
    · simp at h
  · simp at h

private theorem users_one (s : Users.State) (h : Name) (hn : h ≠ []) :
    (Users.Lib.fromHex h = none ∧ Users.getUsers s h = .error ∧ Users.getAddresses s h = .error ∧ Users.getCards s h = .error) ∨
    ((Users.Lib.fromHex h).isSome ∧ (∃ u, Users.getUsers s h = .users [u]) ∧ (∃ a, Users.getAddresses s h = .addresses [a]) ∧
      (∃ c, Users.getCards s h = .cards [c])) := by
  simp only [Users.getUsers, Users.getAddresses, Users.getCards, if_neg hn, Users.getById]
  cases Users.Lib.fromHex h with
  | none => exact .inl ⟨rfl, rfl, rfl, rfl⟩
  | some n =>
    refine .inr ⟨rfl, ⟨_, rfl⟩, ?_, ?_⟩
    · simp only []
      cases s.addresses.find? (fun e => e.1 = n) with
      | none => exact ⟨_, rfl⟩
      | some a => exact ⟨_, rfl⟩
    · simp only []
      cases s.cards.find? (fun e => e.1 = n) with
      | none => exact ⟨_, rfl⟩
      | some a => exact ⟨_, rfl⟩

private theorem fetch_ok {w : World F P} {q : Request} (items : List (Cart.Item P)) (a : Name × Users.Address)
    (c : Name × Users.Card)
    (h : q.customerID ≠ [] ∧ q.addressID ≠ [] ∧ q.cardID ≠ [] ∧ q.cartID ≠ []) (hi : items ≠ [])
    (h1 : Cart.getCartItems w.carts q.cartID = .items items) (h2 : (Users.Lib.fromHex q.customerID).isSome)
    (h3 : Users.getAddresses w.users q.addressID = .addresses [a]) (h4 : Users.getCards w.users q.cardID = .cards [c]) :
    fetch w q Faults.none = some ⟨items, a, c⟩ := by
  unfold fetch
  rw [if_neg h.1, if_neg h.2.1, if_neg h.2.2.1, if_neg h.2.2.2]
  simp only [Faults.none, Bool.or_self, Bool.false_eq_true, if_false]
  rcases users_one w.users q.customerID h.1 with ⟨e, -⟩ | ⟨-, ⟨u, e⟩, -⟩
  · rw [e] at h2; simp at h2
  · rw [h1, e, h3, h4]
    have : items.length ≠ 0 := fun e => hi (List.length_eq_zero_iff.1 e)
    simp [this]

/-- C80: when nothing fails, an order is placed exactly if all identifiers are given and well-formed, the cart has items
and their price is positive and within the payment limit. -/
theorem C80_accepted_iff (w : World F P) (hr : Reached w) (limit : P) (q : Request) (uuid date : Name) :
    (∃ o, (newOrder w limit q Faults.none uuid date).2 = .placed o) ↔
      (q.customerID ≠ [] ∧ q.addressID ≠ [] ∧ q.cardID ≠ [] ∧ q.cartID ≠ []) ∧
      (Users.Lib.fromHex q.customerID).isSome ∧ (Users.Lib.fromHex q.addressID).isSome ∧
      (Users.Lib.fromHex q.cardID).isSome ∧
      ∃ items, Cart.getCartItems w.carts q.cartID = .items items ∧ items ≠ [] ∧ Acceptable limit (priceOf items) := by
  have hw := reached_ok hr
  constructor
  · rintro ⟨o, h⟩
    rcases new_cases w limit q Faults.none uuid date with e | ⟨f, hf, e⟩
    · rw [e] at h; cases h
    · obtain ⟨h1, -, h2, h3, ⟨u, us, h4⟩, ⟨as, h5⟩, ⟨cs, h6⟩⟩ := fetch_some hf
      refine ⟨h1, ?_, ?_, ?_, f.items, h2, h3, ?_⟩
      · rcases users_one w.users q.customerID h1.1 with ⟨-, e, -⟩ | ⟨e, -⟩
        · rw [h4] at e; cases e
        · exact e
      · rcases users_one w.users q.addressID h1.2.1 with ⟨-, -, e, -⟩ | ⟨e, -⟩
        · rw [h5] at e; cases e
        · exact e
      · rcases users_one w.users q.cardID h1.2.2.1 with ⟨-, -, -, e⟩ | ⟨e, -⟩
        · rw [h6] at e; cases e
        · exact e
      · rw [e] at h
        rcases finish_cases w hw limit q Faults.none uuid date f with ⟨e, -⟩ | ⟨ha, -⟩
        · rw [e] at h; cases h
        · exact ha
  · rintro ⟨h1, h2, h3, h4, items, h5, h6, h7⟩
    obtain ⟨a, ha⟩ : ∃ a, Users.getAddresses w.users q.addressID = .addresses [a] := by
      rcases users_one w.users q.addressID h1.2.1 with ⟨e, -⟩ | ⟨-, -, e, -⟩
      · rw [e] at h3; simp at h3
      · exact e
    obtain ⟨c, hc⟩ : ∃ c, Users.getCards w.users q.cardID = .cards [c] := by
      rcases users_one w.users q.cardID h1.2.2.1 with ⟨e, -⟩ | ⟨-, -, -, e⟩
      · rw [e] at h4; simp at h4
      · exact e
    have hf := fetch_ok items a c h1 h6 h5 h2 ha hc
    have e : newOrder w limit q Faults.none uuid date = finish w limit q Faults.none uuid date ⟨items, a, c⟩ := by
      unfold newOrder; rw [hf]
    rw [e]
    rcases finish_cases w hw limit q Faults.none uuid date ⟨items, a, c⟩ with
      ⟨-, h | h | h⟩ | ⟨-, -, -, ⟨h, -⟩ | ⟨-, h, -⟩ | ⟨-, -, -, -, -, -, ⟨h, -⟩ | ⟨-, -, h⟩⟩⟩
    · exact absurd h7 h
    · cases h
    · exact absurd rfl h
    · cases h
    · cases h
    · cases h
    · exact ⟨_, h⟩

/-- C80: a placed order has the items of the cart, the address and the card that were asked for, and their price, which
is acceptable; it is stored, and its shipment is queued and stored under the same new identifier, each once; nothing else changes,
except that the customer's cart is emptied. -/
theorem C80_placed (w : World F P) (hr : Reached w) (limit : P) (q : Request) (flt : Faults) (uuid date : Name)
    (o : Order P) (h : (newOrder w limit q flt uuid date).2 = .placed o) :
    (Cart.getCartItems w.carts q.cartID = .items o.items ∧ o.items ≠ [] ∧
      Users.getAddresses w.users q.addressID = .addresses [o.address] ∧
      Users.getCards w.users q.cardID = .cards [o.card] ∧
      o.total = priceOf o.items ∧ Acceptable limit o.total ∧
      o.id = uuid ∧ o.customerID = q.customerID ∧ o.date = date ∧ o.shipment = ⟨uuid, q.customerID, awaiting⟩) ∧
    ∃ w', (newOrder w limit q flt uuid date).1 = w' ∧
      w'.orders = w.orders ++ [o] ∧ w'.queue = w.queue ++ [o.shipment] ∧ w'.shipments = w.shipments ++ [o.shipment] ∧
      w'.users = w.users ∧ Cart.getCartItems (P := P) w'.carts q.customerID = .items [] ∧
      ∀ c, c ≠ q.customerID → Cart.getCartItems (P := P) w'.carts c = Cart.getCartItems w.carts c := by
  rcases new_cases w limit q flt uuid date with e | ⟨f, hf, e⟩
  · rw [e] at h; cases h
  · obtain ⟨h1, -, h2, h3, -, ⟨as, h5⟩, ⟨cs, h6⟩⟩ := fetch_some hf
    have h5' : Users.getAddresses w.users q.addressID = .addresses [f.address] := by
      rcases users_one w.users q.addressID h1.2.1 with ⟨-, -, e, -⟩ | ⟨-, -, ⟨a, e⟩, -⟩
      · rw [h5] at e; cases e
      · rw [h5] at e; cases e; exact h5
    have h6' : Users.getCards w.users q.cardID = .cards [f.card] := by
      rcases users_one w.users q.cardID h1.2.2.1 with ⟨-, -, -, e⟩ | ⟨-, -, -, ⟨a, e⟩⟩
      · rw [h6] at e; cases e
      · rw [h6] at e; cases e; exact h6
    rw [e] at h ⊢
    rcases finish_cases w (reached_ok hr) limit q flt uuid date f with
      ⟨e, -⟩ | ⟨ha, -, -, ⟨-, e⟩ | ⟨-, -, e⟩ | ⟨-, -, g1, g2, g3, g4, ⟨-, -, e⟩ | ⟨-, ⟨s, hs, hs'⟩, e⟩⟩⟩
    · rw [e] at h; cases h
    · rw [e] at h; cases h
    · rw [e] at h; cases h
    · rw [e] at h; cases h
    · rw [e] at h
      cases h
      refine ⟨⟨h2, h3, h5', h6', rfl, ha, rfl, rfl, rfl, rfl⟩, _, rfl, g4, g1, g2, g3, ?_, ?_⟩
      · rw [Cart.get_items hs']; simp [Cart.Carts.put]
      · intro c hc
        rw [Cart.get_items hs', Cart.get_items hs]
        simp [Cart.Carts.put, hc]

/-- C80: a refused order leaves no trace: with an error no order is stored and no cart is changed; and if the shipment and order
could be stored, nothing at all has changed.  Missing from the full property: an error after the shipment has been queued
(`C80_shipped_without_order_refuted`). -/
theorem C80_refused_partial (w : World F P) (hr : Reached w) (limit : P) (q : Request) (flt : Faults) (uuid date : Name)
    (h : (newOrder w limit q flt uuid date).2 = .error) :
    (newOrder w limit q flt uuid date).1.orders = w.orders ∧ (newOrder w limit q flt uuid date).1.carts = w.carts ∧
    (newOrder w limit q flt uuid date).1.users = w.users ∧
    (flt.insertShipment = false → flt.insertOrder = false → (newOrder w limit q flt uuid date).1 = w) := by
  rcases new_cases w limit q flt uuid date with e | ⟨f, hf, e⟩
  · rw [e]; exact ⟨rfl, rfl, rfl, fun _ _ => rfl⟩
  · rw [e] at h ⊢
    rcases finish_cases w (reached_ok hr) limit q flt uuid date f with
      ⟨e, -⟩ | ⟨ha, -, -, ⟨h1, e⟩ | ⟨-, h1, e⟩ | ⟨-, -, g1, g2, g3, g4, ⟨-, -, e⟩ | ⟨-, ⟨s, hs, hs'⟩, e⟩⟩⟩
    · rw [e]; exact ⟨rfl, rfl, rfl, fun _ _ => rfl⟩
    · rw [e]; exact ⟨rfl, rfl, rfl, fun h _ => by rw [h1] at h; cases h⟩
    · rw [e]; exact ⟨rfl, rfl, rfl, fun _ h => by rw [h1] at h; cases h⟩
    · rw [e] at h; cases h
    · rw [e] at h; cases h

/-- C80: if the price is not acceptable nothing is shipped, stored or deleted, whatever fails besides. -/
theorem C80_unpaid (w : World F P) (hr : Reached w) (limit : P) (q : Request) (flt : Faults) (uuid date : Name)
    (items : List (Cart.Item P)) (hi : Cart.getCartItems w.carts q.cartID = .items items)
    (hn : ¬ Acceptable limit (priceOf items)) : newOrder w limit q flt uuid date = (w, .error) := by
  rcases new_cases w limit q flt uuid date with e | ⟨f, hf, e⟩
  · exact e
  · obtain ⟨-, -, h2, -⟩ := fetch_some hf
    rw [hi] at h2
    cases h2
    rw [e]
    rcases finish_cases w (reached_ok hr) limit q flt uuid date f with ⟨e, -⟩ | ⟨ha, -⟩
    · exact e
    · exact absurd ha hn

/-- C80 refuted: if the cart that is ordered is not the customer's own (a session's cart, say), it keeps its items, and the
items in the customer's own cart, which nobody ordered, are deleted.  The same order can then be placed again. -/
theorem C80_other_cart_refuted (w : World F P) (hr : Reached w) (limit : P) (q : Request) (uuid date : Name)
    (hq : q.cartID ≠ q.customerID) (o : Order P) (h : (newOrder w limit q Faults.none uuid date).2 = .placed o) :
    ∃ w', (newOrder w limit q Faults.none uuid date).1 = w' ∧
      Cart.getCartItems w'.carts q.cartID = .items o.items ∧ o.items ≠ [] ∧
      Cart.getCartItems (P := P) w'.carts q.customerID = .items [] ∧
      ∀ uuid' date', ∃ o', (newOrder w' limit q Faults.none uuid' date').2 = .placed o' ∧ o'.items = o.items := by
  obtain ⟨⟨h1, h2, h3⟩, w', e, -, -, -, hu, h4, h5⟩ := C80_placed w hr limit q _ uuid date o h
  have hc : Cart.getCartItems w'.carts q.cartID = .items o.items := by rw [h5 _ hq, h1]
  refine ⟨w', e, hc, h2, h4, ?_⟩
  intro uuid' date'
  have hr' : Reached w' := by
    rw [← e]
    exact reached_call hr (.order limit q Faults.none uuid date)
  have hacc := (C80_accepted_iff w hr limit q uuid date).1 ⟨o, h⟩
  obtain ⟨o', ho'⟩ := (C80_accepted_iff w' hr' limit q uuid' date').2
    ⟨hacc.1, hacc.2.1, hacc.2.2.1, hacc.2.2.2.1, o.items, hc, h2, by
      obtain ⟨items, g1, -, g3⟩ := hacc.2.2.2.2
      rw [h1] at g1
      cases g1
      exact g3⟩
  refine ⟨o', ho', ?_⟩
  obtain ⟨⟨g1, -⟩, -⟩ := C80_placed w' hr' limit q _ uuid' date' o' ho'
  rw [hc] at g1
  simpa using g1.symm

/-- C80 refuted: whether customer, address and card exist is not checked.  An order for which all three are unknown is
placed, with a blank address and a blank card. -/
theorem C80_unknown_refuted (w : World F P) (hr : Reached w) (limit : P) (q : Request) (uuid date : Name)
    (c a k : Nat) (hc : Users.Lib.fromHex q.customerID = some c) (ha : Users.Lib.fromHex q.addressID = some a)
    (hk : Users.Lib.fromHex q.cardID = some k)
    (hne : q.customerID ≠ [] ∧ q.addressID ≠ [] ∧ q.cardID ≠ [] ∧ q.cartID ≠ [])
    (_ : ∀ u ∈ w.users.users, u.id ≠ c) (h2 : ∀ x ∈ w.users.addresses, x.1 ≠ a)
    (h3 : ∀ x ∈ w.users.cards, x.1 ≠ k) (items : List (Cart.Item P))
    (hi : Cart.getCartItems w.carts q.cartID = .items items) (hi' : items ≠ []) (hp : Acceptable limit (priceOf items)) :
    ∃ o, (newOrder w limit q Faults.none uuid date).2 = .placed o ∧
      o.address.2 = ⟨[], [], [], [], []⟩ ∧ o.card.2 = ⟨[], [], []⟩ := by
  obtain ⟨o, ho⟩ := (C80_accepted_iff w hr limit q uuid date).2
    ⟨hne, by simp [hc], by simp [ha], by simp [hk], items, hi, hi', hp⟩
  refine ⟨o, ho, ?_⟩
  obtain ⟨⟨-, -, g1, g2, -⟩, -⟩ := C80_placed w hr limit q _ uuid date o ho
  constructor
  · have : w.users.addresses.find? (fun e => e.1 = a) = none := by
      rw [List.find?_eq_none]; intro x hx; simpa using h2 x hx
    simp only [Users.getAddresses, if_neg hne.2.1, Users.getById, ha, this] at g1
    simp only [Users.Reply.addresses.injEq, List.cons.injEq, and_true] at g1
    rw [← g1]
    rfl
  · have : w.users.cards.find? (fun e => e.1 = k) = none := by
      rw [List.find?_eq_none]; intro x hx; simpa using h3 x hx
    simp only [Users.getCards, if_neg hne.2.2.1, Users.getById, hk, this] at g2
    simp only [Users.Reply.cards.injEq, List.cons.injEq, and_true] at g2
    rw [← g2]
    rfl

/-- C80 refuted: if the order cannot be stored `NewOrder` returns an error, but the goods are on their way: the shipment has been
queued and stored. -/
theorem C80_shipped_without_order_refuted (w : World F P) (hr : Reached w) (limit : P) (q : Request) (uuid date : Name)
    (o : Order P) (h : (newOrder w limit q Faults.none uuid date).2 = .placed o) :
    newOrder w limit q { Faults.none with insertOrder := true } uuid date =
      ({ w with queue := w.queue ++ [o.shipment], shipments := w.shipments ++ [o.shipment] }, .error) := by
  obtain ⟨⟨-, -, -, -, -, -, -, -, -, hs⟩, -⟩ := C80_placed w hr limit q _ uuid date o h
  rcases new_cases w limit q Faults.none uuid date with e | ⟨f, hf, e⟩
  · rw [e] at h; cases h
  · have hf' : fetch w q { Faults.none with insertOrder := true } = some f := hf
    have e' : newOrder w limit q { Faults.none with insertOrder := true } uuid date =
        finish w limit q { Faults.none with insertOrder := true } uuid date f := by unfold newOrder; rw [hf']
    rw [e', hs]
    rcases finish_cases w (reached_ok hr) limit q { Faults.none with insertOrder := true } uuid date f with
      ⟨-, h' | h' | h'⟩ | ⟨-, -, -, ⟨h', -⟩ | ⟨-, -, e2⟩ | ⟨-, h', -⟩⟩
    · rw [e] at h
      rcases finish_cases w (reached_ok hr) limit q Faults.none uuid date f with ⟨e, -⟩ | ⟨ha, -⟩
      · rw [e] at h; cases h
      · exact absurd ha h'
    · cases h'
    · exact absurd rfl h'
    · cases h'
    · exact e2
    · cases h'

/-- C80 refuted: what the customer puts in the cart while the order is being placed, after the cart has been read, is
deleted with the cart without having been ordered. -/
theorem C80_late_item_refuted (w : World F P) (hr : Reached w) (limit : P) (q : Request) (uuid date : Name)
    (f : Fetched P) (hf : fetch w q Faults.none = some f) (hp : Acceptable limit (priceOf f.items))
    (hq : q.cartID = q.customerID) (n : Nat) (x : Cart.Item P) (hx : ∀ y ∈ f.items, y.id ≠ x.id) :
    ∃ w₁ w₂ o, call w (.cart n (.addItem q.customerID x)) = (w₁, .cart (.item x)) ∧
      finish w₁ limit q Faults.none uuid date f = (w₂, .placed o) ∧ (∀ y ∈ o.items, y.id ≠ x.id) ∧
      Cart.getCartItems (P := P) w₂.carts q.customerID = .items [] := by
  have hw := reached_ok hr
  obtain ⟨⟨s, hs⟩, hb⟩ := hw
  obtain ⟨-, -, h2, -⟩ := fetch_some hf
  rw [Cart.get_items hs] at h2
  have hadd : ∃ db', Cart.addItem w.carts q.customerID x n = (db', .item x) ∧ Cart.Shows db' (s.put q.customerID (s q.customerID ++ [x])) := by
    unfold Cart.addItem
    rw [Cart.shows_get hs]
    have hnone : Cart.inCart x.id (s q.customerID) = none := by
      rw [Cart.in_cart_none]
      rw [hq] at h2
      simp only [Cart.Reply.items.injEq] at h2
      rw [h2]
      exact hx
    simp only [Cart.addWrite, Cart.addTo, Cart.find_none.2 hnone]
    obtain ⟨db1, b, e1, h1⟩ := Cart.shows_upsert hs q.customerID (s q.customerID ++ [x])
      (Cart.nodup_append_new (hs.nodup _) hnone) n
    rw [e1]
    exact ⟨db1, rfl, h1⟩
  obtain ⟨db', e, h'⟩ := hadd
  rcases finish_cases { w with carts := db' } ⟨⟨_, h'⟩, hb⟩ limit q Faults.none uuid date f with
    ⟨-, h | h | h⟩ | ⟨-, -, -, ⟨h, -⟩ | ⟨-, h, -⟩ | ⟨-, -, -, -, -, -, ⟨h, -⟩ | ⟨-, ⟨s', -, hs'⟩, h⟩⟩⟩
  · exact absurd hp h
  · cases h
  · exact absurd rfl h
  · cases h
  · cases h
  · cases h
  · refine ⟨{ w with carts := db' }, (finish { w with carts := db' } limit q Faults.none uuid date f).1,
      ⟨uuid, q.customerID, f.address, f.card, f.items, ⟨uuid, q.customerID, awaiting⟩, date, priceOf f.items⟩, ?_, ?_, hx, ?_⟩
    · simp only [call, Cart.call, e]
    · exact Prod.ext rfl h
    · rw [Cart.get_items hs']
      simp [Cart.Carts.put]

/-! ### Stored orders -/

private theorem answer_orders (w : World F P) (hw : Ok w) (o : Op P) :
    (call w o).1.orders = w.orders ++ ((call w o).2.placed).toList ∧
      ∀ x, (call w o).2.placed = some x → drawn o = some x.id ∧ x.shipment.status = awaiting := by
  cases o with
  | cart n o => exact ⟨by simp [call, Answer.placed], by simp [call, Answer.placed]⟩
  | user o => exact ⟨by simp [call, Answer.placed], by simp [call, Answer.placed]⟩
  | ship =>
    simp only [call, ship, Answer.placed]
    split <;> simp
  | getOrder _ => exact ⟨by simp [call, Answer.placed], by simp [call, Answer.placed]⟩
  | getOrders _ => exact ⟨by simp [call, Answer.placed], by simp [call, Answer.placed]⟩
  | order limit q flt uuid date =>
    show (newOrder w limit q flt uuid date).1.orders = w.orders ++ (Answer.placed (.order (newOrder w limit q flt uuid date).2)).toList ∧
      ∀ x, Answer.placed (.order (newOrder w limit q flt uuid date).2) = some x → some uuid = some x.id ∧ x.shipment.status = awaiting
    rcases new_cases w limit q flt uuid date with e | ⟨f, -, e⟩
    · rw [e]; simp [Answer.placed]
    · rw [e]
      rcases finish_cases w hw limit q flt uuid date f with
        ⟨e, -⟩ | ⟨-, -, -, ⟨-, e⟩ | ⟨-, -, e⟩ | ⟨-, -, -, -, -, ho, ⟨-, -, e⟩ | ⟨-, -, e⟩⟩⟩
      · rw [e]; simp [Answer.placed]
      · rw [e]; simp [Answer.placed]
      · rw [e]; simp [Answer.placed]
      · rw [e, ho]
        refine ⟨rfl, ?_⟩
        intro x hx
        cases hx
        exact ⟨rfl, rfl⟩
      · rw [e, ho]
        refine ⟨rfl, ?_⟩
        intro x hx
        cases hx
        exact ⟨rfl, rfl⟩

private theorem calls_orders (hist : List (Op P)) (w : World F P) (hw : Ok w) :
    (calls w hist).1.orders = w.orders ++ (calls w hist).2.filterMap Answer.placed ∧
    (((calls w hist).2.filterMap Answer.placed).map (·.id)).Sublist (hist.filterMap drawn) := by
  induction hist generalizing w with
  | nil => simp [calls]
  | cons o os ih =>
    obtain ⟨i1, i2⟩ := ih _ (ok_call w hw o)
    obtain ⟨a1, a2⟩ := answer_orders w hw o
    simp only [calls, List.filterMap_cons]
    refine ⟨?_, ?_⟩
    · rw [i1, a1]
      cases (call w o).2.placed <;> simp
    · cases hp : (call w o).2.placed with
      | none =>
        simp only []
        cases drawn o with
        | none => exact i2
        | some d => exact List.Sublist.cons _ i2
      | some x =>
        simp only [(a2 x hp).1, List.map_cons]
        exact List.Sublist.cons_cons _ i2

/-- C81: after any calls, `GetOrders` returns exactly the orders that the customer has placed, in the order they were
placed, with everything as it was then. -/
theorem C81_orders_of_customer (hist : List (Op P)) (c : Name) :
    getOrders (calls (World.init : World F P) hist).1 c =
      ((calls (World.init : World F P) hist).2.filterMap Answer.placed).filter fun o => o.customerID = c := by
  unfold getOrders
  rw [(calls_orders hist _ ok_init).1]
  rfl

/-- C81: after any calls in which no identifier was drawn twice, `GetOrder` returns the order that was placed under an
identifier, and nothing for others. -/
theorem C81_order_by_id (hist : List (Op P)) (hd : (hist.filterMap drawn).Nodup) (id : Name) (o : Order P) :
    getOrder (calls (World.init : World F P) hist).1 id = some o ↔
      o ∈ (calls (World.init : World F P) hist).2.filterMap Answer.placed ∧ o.id = id := by
  unfold getOrder
  obtain ⟨h1, h2⟩ := calls_orders hist (World.init : World F P) ok_init
  rw [h1]
  have hn := List.Nodup.sublist h2 hd
  clear h1 h2
  revert hn
  generalize (calls (World.init : World F P) hist).2.filterMap Answer.placed = l
  intro hn
  show (l.find? _) = _ ↔ _
  constructor
  · intro h
    exact ⟨List.mem_of_find?_eq_some h, by simpa using List.find?_some h⟩
  · rintro ⟨hm, rfl⟩
    induction l with
    | nil => simp at hm
    | cons x l ih =>
      simp only [List.map_cons, List.nodup_cons, List.mem_map, not_exists, not_and] at hn
      rw [List.find?_cons]
      by_cases hx : x.id = o.id
      · simp only [hx, decide_true]
        rcases List.mem_cons.1 hm with h3 | h3
        · rw [h3]
        · exact absurd hx.symm (hn.1 o h3)
      · simp only [hx, decide_false]
        rcases List.mem_cons.1 hm with h3 | h3
        · exact absurd (by rw [h3]) hx
        · exact ih hn.2 h3

private theorem calls_awaiting (hist : List (Op P)) (w : World F P) (hw : Ok w) :
    ∀ o ∈ (calls w hist).2.filterMap Answer.placed, o.shipment.status = awaiting := by
  induction hist generalizing w with
  | nil => simp [calls]
  | cons o os ih =>
    obtain ⟨-, a2⟩ := answer_orders w hw o
    simp only [calls, List.filterMap_cons]
    intro x hx
    cases hp : (call w o).2.placed with
    | none =>
      rw [hp] at hx
      exact ih _ (ok_call w hw o) x hx
    | some y =>
      rw [hp] at hx
      rcases List.mem_cons.1 hx with rfl | hx
      · exact (a2 _ hp).2
      · exact ih _ (ok_call w hw o) x hx

/-- C81 refuted: the shipping status in an order never changes.  Whatever happens, also after the queue master has shipped it,
which "will update the order status in the orderservice" (queuemaster.go line 29), every order that `GetOrders` returns is
still awaiting shipment. -/
theorem C81_status_refuted (hist : List (Op P)) (c : Name) :
    ∀ o ∈ getOrders (calls (World.init : World F P) hist).1 c, o.shipment.status = awaiting := by
  intro o ho
  rw [C81_orders_of_customer] at ho
  exact calls_awaiting hist _ ok_init o (List.mem_filter.1 ho).1

private theorem set_last (l : List Shipment) (s : Shipment) (st : Name) (h : ∀ x ∈ l, x.id ≠ s.id) :
    setStatus s.id st (l ++ [s]) = l ++ [{ s with status := st }] := by
  induction l with
  | nil => simp [setStatus]
  | cons x l ih =>
    rw [List.cons_append, setStatus, if_neg (h x List.mem_cons_self), ih fun y hy => h y (List.mem_cons_of_mem _ hy),
      List.cons_append]

/-- C81 refuted: an order is placed, with a new identifier and nothing else in the queue, and the queue master takes its
shipment off the queue and ships it.  The shipment is then recorded as shipped, and all others as they were; but
`GetOrder` and `GetOrders` still answer that the order is awaiting shipment. -/
theorem C81_shipped_refuted (w : World F P) (hr : Reached w) (limit : P) (q : Request) (flt : Faults) (uuid date : Name)
    (o : Order P) (hq : w.queue = []) (hs : ∀ s ∈ w.shipments, s.id ≠ uuid) (ho : ∀ x ∈ w.orders, x.id ≠ uuid)
    (h : (call w (.order limit q flt uuid date)).2 = .order (.placed o)) :
    ∃ w', (calls w [.order limit q flt uuid date, .ship]).1 = w' ∧ w'.queue = [] ∧
      w'.shipments = w.shipments ++ [⟨uuid, q.customerID, "shipped".toList⟩] ∧
      getOrder w' uuid = some o ∧ o ∈ getOrders w' q.customerID ∧ o.shipment.status = awaiting ∧
      awaiting ≠ "shipped".toList := by
  have h' : (newOrder w limit q flt uuid date).2 = .placed o := by
    simp only [call] at h
    injection h
  obtain ⟨⟨-, -, -, -, -, -, h1, h2, -, h3⟩, w1, e, h4, h5, h6, -⟩ := C80_placed w hr limit q flt uuid date o h'
  refine ⟨_, rfl, ?_⟩
  have ec : (calls w [.order limit q flt uuid date, .ship]).1 = ship w1 := by simp only [calls, call, e]
  have es : ship w1 = { w1 with queue := [], shipments := setStatus o.shipment.id shippedStatus w1.shipments } := by
    simp only [ship, h5, hq, List.nil_append]
  rw [ec, es, h6, set_last _ _ _ (by rw [h3]; exact hs)]
  refine ⟨rfl, ?_, ?_, ?_, ?_, by decide⟩
  · simp only [h3, shippedStatus]
  · simp only [getOrder, h4, List.find?_append]
    rw [List.find?_eq_none.2 (by simpa using ho)]
    simp [h1]
  · simp [getOrders, h4, h2]
  · rw [h3]

end Verif.Orders
