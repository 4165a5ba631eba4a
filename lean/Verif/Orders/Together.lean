import Verif.Orders.Props
import Verif.Trains.Concurrent
import Verif.Trains.FailProps
/-
C143: orders that are placed at the same time.  `NewOrder` of the order service is a program of calls of the other services and of the
database, as the methods in `Trains/Programs.lean`.

Simplifications: those of `Orders/Model.lean`; a call of another service is one step; the value that is returned next to an error is left
out.  The four concurrent calls of `NewOrder` are made in an order that is part of the job.
-/
namespace Verif.Orders
open Verif.NoSQL
open Verif.Trains (Prog orErr works Together)
variable {F P : Type} [Host F] [Cart.Single P F] [Users.Lib] [Arith P]

/-- The four calls that are made concurrently. -/
inductive Part where
  | cart | users | addresses | cards
deriving DecidableEq

/-- One call of `NewOrder`, with the limit of the payment service, the identifier drawn, the time, and the order in which the four calls at
the beginning are made. -/
structure Job (P : Type) where
  limit : P
  q : Request
  uuid : Name
  date : Name
  order : List Part

/-- Each of the four calls is made once. -/
def Job.Sound (j : Job P) : Prop := j.order.Perm [.cart, .users, .addresses, .cards]

/-- The variables that the four calls set (lines 125-129). -/
structure Got (P : Type) where
  items : Ret (Cart.Reply P)
  users : Ret Users.Reply
  addresses : Ret Users.Reply
  cards : Ret Users.Reply

/-- Before the calls; a variable that is not set leads to an error, as an error does. -/
def Got.start : Got P := ⟨.error, .error, .error, .error⟩

/-- One of the calls (lines 131-146), and the variable that it sets. -/
def look (w : World F P) (q : Request) : Part → Got P → Got P
  | .cart, g => { g with items := .ok (Cart.getCartItems w.carts q.cartID) }
  | .users, g => { g with users := .ok (Users.getUsers w.users q.customerID) }
  | .addresses, g => { g with addresses := .ok (Users.getAddresses w.users q.addressID) }
  | .cards, g => { g with cards := .ok (Users.getCards w.users q.cardID) }

/-- The checks of what was fetched (orderservice.go lines 148-163). -/
def check (items : Ret (Cart.Reply P)) (users addresses cards : Ret Users.Reply) : Option (Fetched P) :=
  match items, users, addresses, cards with
  | .ok (.items items), .ok (.users users), .ok (.addresses addresses), .ok (.cards cards) =>
    if items.length = 0 then none
    else if users.length = 0 then none
    else match addresses, cards with
      | address :: _, card :: _ => some ⟨items, address, card⟩
      | _, _ => none
  | _, _, _, _ => none

/-- The shipment and the order (lines 174-197). -/
def Job.shipment (j : Job P) : Shipment := ⟨j.uuid, j.q.customerID, awaiting⟩
def Job.placing (j : Job P) (f : Fetched P) : Order P :=
  ⟨j.uuid, j.q.customerID, f.address, f.card, f.items, j.shipment, j.date, calculateTotal f.items⟩

/-- `s.carts.DeleteCart` (line 202) -/
def deleteC (c : Name) (w : World F P) : World F P × Ret Unit := match (Cart.deleteCart w.carts c : List (Doc F) × Cart.Reply P) with
  | (carts, .done) => ({ w with carts }, .ok ())
  | (carts, _) => ({ w with carts }, .error)

/-- `s.db.InsertOne` and what follows (lines 197-202). -/
def deleteP (j : Job P) (o : Order P) : Prog (World F P) (Order P) := .call (deleteC j.q.customerID) (orErr fun () => .ret (.ok o))
def insertOrder (o : Order P) (w : World F P) : World F P × Ret Unit := ({ w with orders := w.orders ++ [o] }, .ok ())
def insertP (j : Job P) (o : Order P) : Prog (World F P) (Order P) := .call (insertOrder o) (orErr fun () => deleteP j o)

/-- `PostShipping` (shippingservice.go lines 53-64) and what follows. -/
def insertShipment (x : Shipment) (w : World F P) : World F P × Ret Unit := ({ w with shipments := w.shipments ++ [x] }, .ok ())
def pushShipment (x : Shipment) (w : World F P) : World F P × Ret Unit := ({ w with queue := w.queue ++ [x] }, .ok ())
def storeP (j : Job P) (o : Order P) : Prog (World F P) (Order P) := .call (insertShipment j.shipment) (orErr fun () => insertP j o)
def pushP (j : Job P) (o : Order P) : Prog (World F P) (Order P) := .call (pushShipment j.shipment) (orErr fun () => storeP j o)

/-- `s.payments.Authorise` and what follows (lines 165-171). -/
def placeP (j : Job P) (f : Fetched P) : Prog (World F P) (Order P) :=
  .call (fun w => (w, .ok (authorise j.limit (calculateTotal f.items)))) fun
    | .ok (some true) => pushP j (j.placing f)
    | _ => .ret .error

/-- The four calls at the beginning, the check (lines 148-163), and what follows. -/
def fetchP (j : Job P) : List Part → Got P → Prog (World F P) (Order P)
  | [], g => match check g.items g.users g.addresses g.cards with
    | none => .ret .error
    | some f => placeP j f
  | k :: ks, g => .call (fun w => (w, .ok (look w j.q k))) fun
    | .ok set => fetchP j ks (set g)
    | _ => fetchP j ks g

/-- `NewOrder` (lines 110-203). -/
def newOrderP (j : Job P) : Prog (World F P) (Order P) :=
  if j.q.customerID = [] then .ret .error
  else if j.q.addressID = [] then .ret .error
  else if j.q.cardID = [] then .ret .error
  else if j.q.cartID = [] then .ret .error
  else fetchP j j.order Got.start

/-- What a call alone returns. -/
def ofReply : Reply P → Ret (Order P)
  | .placed o => .ok o
  | .placedError _ => .error
  | .error => .error

/-- A call alone, when nothing fails. -/
def alone (w : World F P) (j : Job P) : World F P × Reply P := newOrder w j.limit j.q Faults.none j.uuid j.date

/-- The order that a call alone places. -/
def ordered (w : World F P) (j : Job P) : Option (Order P) := match (alone w j).2 with
  | .placed o => some o
  | _ => none

private theorem fetch_check (w : World F P) (q : Request) (h : q.customerID ≠ [] ∧ q.addressID ≠ [] ∧ q.cardID ≠ [] ∧ q.cartID ≠ []) :
    fetch w q Faults.none = check (.ok (Cart.getCartItems w.carts q.cartID)) (.ok (Users.getUsers w.users q.customerID))
      (.ok (Users.getAddresses w.users q.addressID)) (.ok (Users.getCards w.users q.cardID)) := by
  unfold fetch check
  rw [if_neg h.1, if_neg h.2.1, if_neg h.2.2.1, if_neg h.2.2.2]
  simp only [Faults.none, Bool.or_self, Bool.false_eq_true, if_false]
  cases (Cart.getCartItems w.carts q.cartID : Cart.Reply P) <;> cases Users.getUsers w.users q.customerID <;>
    cases Users.getAddresses w.users q.addressID <;> cases Users.getCards w.users q.cardID <;> rfl

private theorem new_missing (j : Job P) (h : ¬ (j.q.customerID ≠ [] ∧ j.q.addressID ≠ [] ∧ j.q.cardID ≠ [] ∧ j.q.cartID ≠ [])) :
    (newOrderP j : Prog (World F P) (Order P)) = .ret .error ∧ ∀ w : World F P, fetch w j.q Faults.none = none := by
  unfold newOrderP fetch
  split; · exact ⟨rfl, fun _ => rfl⟩
  split; · exact ⟨rfl, fun _ => rfl⟩
  split; · exact ⟨rfl, fun _ => rfl⟩
  split; · exact ⟨rfl, fun _ => rfl⟩
  rename_i h1 h2 h3 h4
  exact absurd ⟨h1, h2, h3, h4⟩ h

private theorem new_given (j : Job P) (h : j.q.customerID ≠ [] ∧ j.q.addressID ≠ [] ∧ j.q.cardID ≠ [] ∧ j.q.cartID ≠ []) :
    (newOrderP j : Prog (World F P) (Order P)) = fetchP j j.order Got.start := by
  unfold newOrderP
  rw [if_neg h.1, if_neg h.2.1, if_neg h.2.2.1, if_neg h.2.2.2]

/-- A variable has the value that the call returns. -/
private def IsSet (w : World F P) (q : Request) (g : Got P) : Part → Prop
  | .cart => g.items = .ok (Cart.getCartItems w.carts q.cartID)
  | .users => g.users = .ok (Users.getUsers w.users q.customerID)
  | .addresses => g.addresses = .ok (Users.getAddresses w.users q.addressID)
  | .cards => g.cards = .ok (Users.getCards w.users q.cardID)

private theorem isSet_look {w : World F P} {q : Request} {g : Got P} {ks : List Part} {k : Part}
    (h : ∀ x, x ∈ k :: ks ∨ IsSet w q g x) : ∀ x, x ∈ ks ∨ IsSet w q (look w q k g) x := by
  intro x
  by_cases hx : x = k
  · subst hx
    right
    cases x <;> rfl
  · rcases h x with h' | h'
    · rcases List.mem_cons.1 h' with h' | h'
      · exact absurd h' hx
      · exact .inl h'
    · right
      clear h
      cases x <;> cases k <;> first | exact absurd rfl hx | exact h'

private theorem check_set {w : World F P} {q : Request} {g : Got P} (h : ∀ x, x ∈ ([] : List Part) ∨ IsSet w q g x)
    (hq : q.customerID ≠ [] ∧ q.addressID ≠ [] ∧ q.cardID ≠ [] ∧ q.cartID ≠ []) :
    check g.items g.users g.addresses g.cards = fetch w q Faults.none := by
  have h : ∀ x, IsSet w q g x := fun x => (h x).resolve_left (by simp)
  rw [fetch_check w q hq, show g.items = _ from h .cart, show g.users = _ from h .users, show g.addresses = _ from h .addresses,
    show g.cards = _ from h .cards]

private theorem sound_all {j : Job P} (h : j.Sound) (w : World F P) (g : Got P) : ∀ x, x ∈ j.order ∨ IsSet w j.q g x :=
  fun x => .inl (h.mem_iff.2 (by cases x <;> simp))

private theorem run_fetch (w : World F P) (j : Job P) (hq : j.q.customerID ≠ [] ∧ j.q.addressID ≠ [] ∧ j.q.cardID ≠ [] ∧ j.q.cartID ≠ []) :
    ∀ (ks : List Part) (g : Got P), (∀ x, x ∈ ks ∨ IsSet w j.q g x) →
    (fetchP j ks g).run works w = (match fetch w j.q Faults.none with
      | none => Prog.ret .error
      | some f => placeP j f).run works w := by
  intro ks
  induction ks with
  | nil => intro g h; simp only [fetchP, check_set h hq]
  | cons k ks ih => intro g h; exact ih _ (isSet_look h)

/-- The program is the method of C80. -/
theorem run_works (w : World F P) (j : Job P) (hj : j.Sound) : (newOrderP j).run works w = ((alone w j).1, ofReply (alone w j).2) := by
  unfold alone newOrder
  by_cases h : j.q.customerID ≠ [] ∧ j.q.addressID ≠ [] ∧ j.q.cardID ≠ [] ∧ j.q.cartID ≠ []
  · rw [new_given j h, run_fetch w j h _ _ (sound_all hj w _)]
    cases fetch w j.q Faults.none with
    | none => rfl
    | some f =>
      simp only [placeP, Prog.run, works, finish, Faults.none, Bool.false_eq_true, if_false]
      cases authorise j.limit (calculateTotal f.items) with
      | none => rfl
      | some b =>
        cases b with
        | false => rfl
        | true =>
          simp only [pushP, storeP, insertP, deleteP, Prog.run, pushShipment, insertShipment, insertOrder, orErr, deleteC, Job.shipment, Job.placing]
          rcases (Cart.deleteCart w.carts j.q.customerID : List (Doc F) × Cart.Reply P) with ⟨carts, r⟩
          cases r <;> rfl
  · rw [(new_missing j h).1, (new_missing j h).2 w]
    rfl

private theorem alone_none {w : World F P} {j : Job P} (h : fetch w j.q Faults.none = none) : (alone w j).2 = .error := by
  unfold alone newOrder
  rw [h]

private theorem alone_unpaid {w : World F P} {j : Job P} {f : Fetched P} (h : fetch w j.q Faults.none = some f)
    (ha : authorise j.limit (calculateTotal f.items) ≠ some true) : (alone w j).2 = .error := by
  unfold alone newOrder
  rw [h]
  simp only [finish, Faults.none, Bool.false_eq_true, if_false]
  cases hz : authorise j.limit (calculateTotal f.items) with
  | none => rfl
  | some b =>
    cases b with
    | false => rfl
    | true => exact absurd hz ha

private theorem alone_placed {w : World F P} {s : Cart.Carts P} (hs : Cart.Shows w.carts s) {j : Job P} {f : Fetched P}
    (h : fetch w j.q Faults.none = some f) (ha : authorise j.limit (calculateTotal f.items) = some true) : (alone w j).2 = .placed (j.placing f) := by
  unfold alone newOrder
  rw [h]
  simp only [finish, Faults.none, Bool.false_eq_true, if_false, ha]
  obtain ⟨db', e, -⟩ := Cart.shows_delete hs j.q.customerID
  rw [e]
  rfl

private theorem ordered_error {w : World F P} {j : Job P} (h : (alone w j).2 = .error) : ordered w j = none := by
  unfold ordered; rw [h]

private theorem ordered_placed {w : World F P} {j : Job P} {o : Order P} (h : (alone w j).2 = .placed o) : ordered w j = some o := by
  unfold ordered; rw [h]

/-! ### Where a call is -/

/-- How much a call has done: nothing, pushed the shipment, stored it, stored the order, or everything. -/
private inductive At (w0 : World F P) : Job P × Nat → Prog (World F P) (Order P) → Prop where
  | fetching (j : Job P) (ks g) (h : j.q.customerID ≠ [] ∧ j.q.addressID ≠ [] ∧ j.q.cardID ≠ [] ∧ j.q.cartID ≠ [])
      (hs : ∀ x, x ∈ ks ∨ IsSet w0 j.q g x) : At w0 (j, 0) (fetchP j ks g)
  | refused (j : Job P) (h : (alone w0 j).2 = .error) : At w0 (j, 0) (.ret .error)
  | paid (j : Job P) (o) (h : (alone w0 j).2 = .placed o) (hs : o.shipment = j.shipment) : At w0 (j, 0) (pushP j o)
  | pushed (j : Job P) (o) (h : (alone w0 j).2 = .placed o) (hs : o.shipment = j.shipment) : At w0 (j, 1) (storeP j o)
  | stored (j : Job P) (o) (h : (alone w0 j).2 = .placed o) (hs : o.shipment = j.shipment) : At w0 (j, 2) (insertP j o)
  | inserted (j : Job P) (o) (h : (alone w0 j).2 = .placed o) (hs : o.shipment = j.shipment) : At w0 (j, 3) (deleteP j o)
  | ended (j : Job P) (o) (h : (alone w0 j).2 = .placed o) (hs : o.shipment = j.shipment) : At w0 (j, 4) (.ret (.ok o))

/-- What the calls that have come far enough have added. -/
private def effs {α : Type} (k : Nat) (g : Job P → Option α) (l : List (Job P × Nat)) : List α :=
  (l.filter fun t => k ≤ t.2).filterMap fun t => g t.1

private theorem effs_other {α : Type} {k : Nat} {g : Job P → Option α} {a b : List (Job P × Nat)} {j : Job P} {i : Nat} (h : i + 1 ≠ k) :
    effs k g (a ++ (j, i + 1) :: b) = effs k g (a ++ (j, i) :: b) := by
  have : decide (k ≤ i + 1) = decide (k ≤ i) := by
    by_cases hk : k ≤ i
    · simp [hk]; omega
    · simp [hk]; omega
  simp only [effs, List.filter_append, List.filter_cons, this, List.filterMap_append]
  by_cases hk : k ≤ i <;> simp [hk, List.filterMap_cons]

private theorem effs_step {α : Type} {g : Job P → Option α} {a b : List (Job P × Nat)} {j : Job P} {i : Nat} {x : α} (hg : g j = some x)
    {l m : List α} (h : l.Perm (m ++ effs (i + 1) g (a ++ (j, i) :: b))) : (l ++ [x]).Perm (m ++ effs (i + 1) g (a ++ (j, i + 1) :: b)) := by
  have e1 : effs (i + 1) g (a ++ (j, i) :: b) = effs (i + 1) g a ++ effs (i + 1) g b := by
    simp [effs, List.filter_append, List.filter_cons]
  have e2 : effs (i + 1) g (a ++ (j, i + 1) :: b) = effs (i + 1) g a ++ x :: effs (i + 1) g b := by
    simp [effs, List.filter_append, List.filter_cons, hg]
  rw [e1] at h
  rw [e2]
  have h1 : (l ++ [x]).Perm (x :: l) := List.perm_append_comm
  have h2 : (x :: l).Perm (x :: ((m ++ effs (i + 1) g a) ++ effs (i + 1) g b)) := by rw [List.append_assoc]; exact h.cons x
  have := h1.trans (h2.trans List.perm_middle.symm)
  rwa [List.append_assoc] at this

private structure Inv (w0 : World F P) (s0 : Cart.Carts P) (w : World F P) (l : List (Job P × Nat)) : Prop where
  users : w.users = w0.users
  queue : w.queue.Perm (w0.queue ++ effs 1 (fun j => (ordered w0 j).map (·.shipment)) l)
  shipments : w.shipments.Perm (w0.shipments ++ effs 2 (fun j => (ordered w0 j).map (·.shipment)) l)
  orders : w.orders.Perm (w0.orders ++ effs 3 (ordered w0) l)
  carts : ∃ s : Cart.Carts P, Cart.Shows w.carts s ∧ (∀ t ∈ l, t.2 = 4 → s t.1.q.customerID = []) ∧
    ∀ c, (∀ t ∈ l, t.2 = 4 → t.1.q.customerID ≠ c) → s c = s0 c

private theorem carts_same {s0 : Cart.Carts P} {db : List (Doc F)} {a b : List (Job P × Nat)} {j : Job P} {i : Nat} (hi : i + 1 < 4)
    (h : ∃ s : Cart.Carts P, Cart.Shows db s ∧ (∀ t ∈ a ++ (j, i) :: b, t.2 = 4 → s t.1.q.customerID = []) ∧
      ∀ c, (∀ t ∈ a ++ (j, i) :: b, t.2 = 4 → t.1.q.customerID ≠ c) → s c = s0 c) :
    ∃ s : Cart.Carts P, Cart.Shows db s ∧ (∀ t ∈ a ++ (j, i + 1) :: b, t.2 = 4 → s t.1.q.customerID = []) ∧
      ∀ c, (∀ t ∈ a ++ (j, i + 1) :: b, t.2 = 4 → t.1.q.customerID ≠ c) → s c = s0 c := by
  obtain ⟨s, h1, h2, h3⟩ := h
  refine ⟨s, h1, ?_, ?_⟩
  · intro t ht h4
    simp only [List.mem_append, List.mem_cons] at ht
    rcases ht with ht | rfl | ht
    · exact h2 t (by simp [ht]) h4
    · simp only at h4; omega
    · exact h2 t (by simp [ht]) h4
  · intro c hc
    refine h3 c fun t ht h4 => ?_
    simp only [List.mem_append, List.mem_cons] at ht
    rcases ht with ht | rfl | ht
    · exact hc t (by simp [ht]) h4
    · simp only at h4; omega
    · exact hc t (by simp [ht]) h4

private theorem step {w0 w : World F P} {s0 : Cart.Carts P} (hs0 : Cart.Shows w0.carts s0) {a b : List (Job P × Nat)} {t : Job P × Nat} {β : Type}
    {f : World F P → World F P × Ret β} {k : Ret β → Prog (World F P) (Order P)} (h : Inv w0 s0 w (a ++ t :: b)) (ha : At w0 t (.call f k))
    (hc : t.1.q.cartID = t.1.q.customerID) (hn : ∀ u ∈ a ++ b, u.1.q.customerID ≠ t.1.q.customerID) :
    ∃ i, At w0 (t.1, i) (k (f w).2) ∧ Inv w0 s0 (f w).1 (a ++ (t.1, i) :: b) := by
  have paying : ∀ {j : Job P} {x : Fetched P} {β : Type} {f : World F P → World F P × Ret β} {k : Ret β → Prog (World F P) (Order P)},
      Inv w0 s0 w (a ++ (j, 0) :: b) → fetch w0 j.q Faults.none = some x → Prog.call f k = placeP j x →
      ∃ i, At w0 (j, i) (k (f w).2) ∧ Inv w0 s0 (f w).1 (a ++ (j, i) :: b) := by
    intro j x β f k h hf hq
    unfold placeP at hq
    cases hq
    refine ⟨0, ?_, h⟩
    cases hz : authorise j.limit (calculateTotal x.items) with
    | none => exact .refused j (alone_unpaid hf (by simp [hz]))
    | some b =>
      cases b with
      | false => exact .refused j (alone_unpaid hf (by simp [hz]))
      | true => exact .paid j _ (alone_placed hs0 hf hz) rfl
  generalize hq : Prog.call f k = p at ha
  cases ha with
  | refused j _ => cases hq
  | ended j o _ _ => cases hq
  | fetching j ks g hg hs =>
    cases ks with
    | nil =>
      simp only [fetchP, check_set hs hg] at hq
      cases hf : fetch w0 j.q Faults.none with
      | none => rw [hf] at hq; cases hq
      | some f =>
        rw [hf] at hq
        exact paying h hf hq
    | cons x ks =>
      unfold fetchP at hq
      cases hq
      refine ⟨0, ?_, h⟩
      obtain ⟨s, g1, -, g3⟩ := h.carts
      have e : (Cart.getCartItems w.carts j.q.cartID : Cart.Reply P) = Cart.getCartItems w0.carts j.q.cartID := by
        rw [Cart.get_items g1, Cart.get_items hs0, hc, g3]
        intro u hu h4
        simp only [List.mem_append, List.mem_cons] at hu
        rcases hu with hu | rfl | hu
        · exact hn u (by simp [hu])
        · cases h4
        · exact hn u (by simp [hu])
      have e' : look w j.q x = look w0 j.q x := by
        funext g
        cases x <;> simp only [look, e, h.users]
      simp only [e']
      exact .fetching j ks _ hg (isSet_look hs)
  | paid j o ho hsh =>
    unfold pushP at hq
    cases hq
    refine ⟨1, .pushed j o ho hsh, h.users, ?_, ?_, ?_, carts_same (by omega) h.carts⟩
    · exact effs_step (by simp [ordered_placed ho, hsh]) h.queue
    · rw [effs_other (by omega)]; exact h.shipments
    · rw [effs_other (by omega)]; exact h.orders
  | pushed j o ho hsh =>
    unfold storeP at hq
    cases hq
    refine ⟨2, .stored j o ho hsh, h.users, ?_, ?_, ?_, carts_same (by omega) h.carts⟩
    · rw [effs_other (by omega)]; exact h.queue
    · exact effs_step (by simp [ordered_placed ho, hsh]) h.shipments
    · rw [effs_other (by omega)]; exact h.orders
  | stored j o ho hsh =>
    unfold insertP at hq
    cases hq
    refine ⟨3, .inserted j o ho hsh, h.users, ?_, ?_, ?_, carts_same (by omega) h.carts⟩
    · rw [effs_other (by omega)]; exact h.queue
    · rw [effs_other (by omega)]; exact h.shipments
    · exact effs_step (ordered_placed ho) h.orders
  | inserted j o ho hsh =>
    unfold deleteP at hq
    cases hq
    obtain ⟨s, g1, g2, g3⟩ := h.carts
    obtain ⟨db', e, g4⟩ := Cart.shows_delete g1 j.q.customerID
    have hd : deleteC j.q.customerID w = ({ w with carts := db' }, .ok ()) := by unfold deleteC; rw [e]
    rw [hd]
    refine ⟨4, .ended j o ho hsh, h.users, ?_, ?_, ?_, _, g4, ?_, ?_⟩
    · rw [effs_other (by omega)]; exact h.queue
    · rw [effs_other (by omega)]; exact h.shipments
    · rw [effs_other (by omega)]; exact h.orders
    · intro u hu h4
      simp only [List.mem_append, List.mem_cons] at hu
      by_cases he : u.1.q.customerID = j.q.customerID
      · simp [Cart.Carts.put, he]
      · simp only [Cart.Carts.put, if_neg he]
        rcases hu with hu | rfl | hu
        · exact g2 u (by simp [hu]) h4
        · exact absurd rfl he
        · exact g2 u (by simp [hu]) h4
    · intro c hc'
      have hne : c ≠ j.q.customerID := fun e => hc' (j, 4) (by simp) rfl e.symm
      simp only [Cart.Carts.put, if_neg hne]
      refine g3 c fun u hu h4 => ?_
      simp only [List.mem_append, List.mem_cons] at hu
      rcases hu with hu | rfl | hu
      · exact hc' u (by simp [hu]) h4
      · cases h4
      · exact hc' u (by simp [hu]) h4

/-! ### All of them -/

private inductive Ats (w0 : World F P) : List (Job P × Nat) → List (Prog (World F P) (Order P)) → Prop where
  | nil : Ats w0 [] []
  | cons {t q l ps} : At w0 t q → Ats w0 l ps → Ats w0 (t :: l) (q :: ps)

private theorem Ats.append {w0 : World F P} {l m : List (Job P × Nat)} {a b : List (Prog (World F P) (Order P))} (h : Ats w0 l a)
    (h' : Ats w0 m b) : Ats w0 (l ++ m) (a ++ b) := by
  induction h with
  | nil => exact h'
  | cons h1 _ ih => exact .cons h1 ih

private theorem Ats.split {w0 : World F P} : ∀ (a : List (Prog (World F P) (Order P))) {b : List (Prog (World F P) (Order P))}
    {q : Prog (World F P) (Order P)} {l : List (Job P × Nat)}, Ats w0 l (a ++ q :: b) →
    ∃ la t lb, l = la ++ t :: lb ∧ Ats w0 la a ∧ At w0 t q ∧ Ats w0 lb b := by
  intro a
  induction a with
  | nil => intro b q l h; cases h with | cons h1 h2 => exact ⟨[], _, _, rfl, .nil, h1, h2⟩
  | cons p a ih =>
    intro b q l h
    cases h with
    | cons h1 h2 =>
      obtain ⟨la, t, lb, rfl, h3, h4, h5⟩ := ih h2
      exact ⟨_ :: la, t, lb, rfl, .cons h1 h3, h4, h5⟩

private theorem together_inv {w0 : World F P} {s0 : Cart.Carts P} (hs0 : Cart.Shows w0.carts s0) {w w' : World F P}
    {ps ps' : List (Prog (World F P) (Order P))} (h : Together w ps w' ps') : ∀ l : List (Job P × Nat), Ats w0 l ps → Inv w0 s0 w l →
    ((l.map (·.1)).map (·.q.customerID)).Nodup → (∀ j ∈ l.map (·.1), j.q.cartID = j.q.customerID) →
    ∃ l', Ats w0 l' ps' ∧ Inv w0 s0 w' l' ∧ l'.map (·.1) = l.map (·.1) := by
  induction h with
  | none s ps => intro l h1 h2 _ _; exact ⟨l, h1, h2, rfl⟩
  | call a b f k s s' ps' _ ih =>
    intro l h1 h2 h3 h4
    obtain ⟨la, t, lb, rfl, k1, k2, k3⟩ := h1.split
    obtain ⟨i, j1, j2⟩ := step hs0 h2 k2 (h4 t.1 (by simp)) (by
      intro q hq e
      simp only [List.map_append, List.map_cons, List.nodup_append, List.nodup_cons, List.mem_map, List.mem_cons] at h3
      rcases List.mem_append.1 hq with hq | hq
      · exact h3.2.2 _ ⟨q.1, ⟨q, hq, rfl⟩, rfl⟩ _ (.inl rfl) e
      · exact h3.2.1.1 ⟨q.1, ⟨q, hq, rfl⟩, e⟩)
    have e : (la ++ (t.1, i) :: lb).map (·.1) = (la ++ t :: lb).map (·.1) := by simp
    obtain ⟨l', m1, m2, m3⟩ := ih (la ++ (t.1, i) :: lb) (k1.append (.cons j1 k3)) j2 (by rw [e]; exact h3) (by rw [e]; exact h4)
    exact ⟨l', m1, m2, m3.trans e⟩

private theorem at_ret {w0 : World F P} {t : Job P × Nat} {r : Ret (Order P)} (h : At w0 t (.ret r)) :
    r = ofReply (alone w0 t.1).2 ∧ ((ordered w0 t.1 = none ∧ t.2 = 0) ∨ ((∃ o, ordered w0 t.1 = some o) ∧ t.2 = 4)) := by
  generalize hq : Prog.ret r = p at h
  cases h with
  | fetching j ks g hg hs =>
    cases ks with
    | cons x ks => unfold fetchP at hq; cases hq
    | nil =>
      simp only [fetchP, check_set hs hg] at hq
      cases hf : fetch w0 j.q Faults.none with
      | none =>
        rw [hf] at hq
        cases hq
        have := alone_none hf
        exact ⟨by simp [this, ofReply], .inl ⟨ordered_error this, rfl⟩⟩
      | some f => rw [hf] at hq; unfold placeP at hq; cases hq
  | refused j ho => cases hq; exact ⟨by simp [ho, ofReply], .inl ⟨ordered_error ho, rfl⟩⟩
  | ended j o ho _ => cases hq; exact ⟨by simp [ho, ofReply], .inr ⟨⟨o, ordered_placed ho⟩, rfl⟩⟩
  | paid => unfold pushP at hq; cases hq
  | pushed => unfold storeP at hq; cases hq
  | stored => unfold insertP at hq; cases hq
  | inserted => unfold deleteP at hq; cases hq

private theorem all_ended {w0 : World F P} {l : List (Job P × Nat)} {ps : List (Prog (World F P) (Order P))} (h : Ats w0 l ps) :
    ∀ rs : List (Ret (Order P)), ps = rs.map .ret → rs = (l.map (·.1)).map (fun j => ofReply (alone w0 j).2) ∧
      ∀ t ∈ l, (ordered w0 t.1 = none ∧ t.2 = 0) ∨ ((∃ o, ordered w0 t.1 = some o) ∧ t.2 = 4) := by
  induction h with
  | nil => intro rs hr; cases rs with
    | nil => exact ⟨rfl, by simp⟩
    | cons r rs => cases hr
  | @cons t q l ps h1 h2 ih =>
    intro rs hr
    cases rs with
    | nil => cases hr
    | cons r rs =>
      simp only [List.map_cons, List.cons.injEq] at hr
      obtain ⟨rfl, hps⟩ := hr
      obtain ⟨i1, i2⟩ := ih rs hps
      obtain ⟨e1, e2⟩ := at_ret h1
      refine ⟨by rw [e1, i1]; rfl, fun t' ht => ?_⟩
      rcases List.mem_cons.1 ht with rfl | ht
      · exact e2
      · exact i2 t' ht

private theorem effs_all {w0 : World F P} {α : Type} (g : Order P → α) (k : Nat) (hk : 1 ≤ k) (hk' : k ≤ 4) (l : List (Job P × Nat))
    (h : ∀ t ∈ l, (ordered w0 t.1 = none ∧ t.2 = 0) ∨ ((∃ o, ordered w0 t.1 = some o) ∧ t.2 = 4)) :
    effs k (fun j => (ordered w0 j).map g) l = (l.map (·.1)).filterMap fun j => (ordered w0 j).map g := by
  induction l with
  | nil => rfl
  | cons t l ih =>
    have ih := ih fun t ht => h t (.tail _ ht)
    simp only [effs] at ih ⊢
    rcases h t (.head _) with ⟨h1, h2⟩ | ⟨⟨o, h1⟩, h2⟩
    · rw [List.filter_cons_of_neg (by simp [h2]; omega), ih]
      simp [h1]
    · rw [List.filter_cons_of_pos (by simp [h2]; omega), List.filterMap_cons, ih]
      simp [h1]

/-- C143: any number of calls of `NewOrder` at the same time, for different customers who each order their own cart, in any order of their
calls, also of the four that each makes concurrently: when all have returned, each has returned what it returns alone; exactly the orders placed have been added to the orders, and their
shipments to the queue and to the shipments; the carts of those who ordered are empty and the others are unchanged.  Missing from the full
property: several orders of the same customer (`C143_twice_refuted`) and other calls at the same time (`C80_late_item_refuted`). -/
theorem C143_orders_partial (w : World F P) (hr : Reached w) (todo : List (Job P)) (hd : (todo.map (·.q.customerID)).Nodup)
    (hc : ∀ j ∈ todo, j.q.cartID = j.q.customerID) (hj : ∀ j ∈ todo, j.Sound) {w' : World F P} {rs : List (Ret (Order P))}
    (h : Together w (todo.map newOrderP) w' (rs.map .ret)) :
    rs = todo.map (fun j => ofReply (alone w j).2) ∧
    w'.users = w.users ∧
    w'.orders.Perm (w.orders ++ todo.filterMap (ordered w)) ∧
    w'.queue.Perm (w.queue ++ (todo.filterMap (ordered w)).map (·.shipment)) ∧
    w'.shipments.Perm (w.shipments ++ (todo.filterMap (ordered w)).map (·.shipment)) ∧
    (∀ j ∈ todo, (ordered w j).isSome → Cart.getCartItems (P := P) w'.carts j.q.customerID = .items []) ∧
    ∀ c, (∀ j ∈ todo, (ordered w j).isSome → j.q.customerID ≠ c) → Cart.getCartItems (P := P) w'.carts c = Cart.getCartItems w.carts c := by
  obtain ⟨⟨s0, hs0⟩, -⟩ := reached_ok hr
  have start : ∀ js : List (Job P), (∀ j ∈ js, j.Sound) → Ats w (js.map fun j => (j, 0)) (js.map newOrderP) := by
    intro js
    induction js with
    | nil => intro _; exact .nil
    | cons j js ih =>
      intro hs
      refine .cons ?_ (ih fun j hj => hs j (.tail _ hj))
      by_cases hg : j.q.customerID ≠ [] ∧ j.q.addressID ≠ [] ∧ j.q.cardID ≠ [] ∧ j.q.cartID ≠ []
      · rw [new_given j hg]
        exact .fetching j _ _ hg (sound_all (hs j (.head _)) w _)
      · rw [(new_missing j hg).1]
        exact .refused j (alone_none ((new_missing (F := F) j hg).2 w))
  have e0 : (todo.map fun j => (j, 0)).map (·.1) = todo := by simp [Function.comp_def]
  have f0 : ∀ {α : Type} (k : Nat) (g : Job P → Option α), 1 ≤ k → effs k g (todo.map fun j => (j, 0)) = [] := by
    intro α k g hk
    unfold effs
    rw [List.filter_eq_nil_iff.2 (by
      intro t ht
      obtain ⟨j, -, rfl⟩ := List.mem_map.1 ht
      simp
      omega)]
    rfl
  obtain ⟨l', h1, h2, h3⟩ := together_inv hs0 h (todo.map fun j => (j, 0)) (start todo hj) (by
    refine ⟨rfl, ?_, ?_, ?_, s0, hs0, ?_, fun _ _ => rfl⟩
    · rw [f0 _ _ (by omega), List.append_nil]
    · rw [f0 _ _ (by omega), List.append_nil]
    · rw [f0 _ _ (by omega), List.append_nil]
    · intro t ht h4
      obtain ⟨j, -, rfl⟩ := List.mem_map.1 ht
      cases h4) (by rw [e0]; exact hd) (by rw [e0]; exact hc)
  rw [e0] at h3
  obtain ⟨r1, r2⟩ := all_ended h1 rs rfl
  have key : ∀ {α : Type} (g : Order P → α) (k : Nat), 1 ≤ k → k ≤ 4 →
      effs k (fun j => (ordered w j).map g) l' = (todo.filterMap (ordered w)).map g := by
    intro α g k hk hk'
    rw [effs_all g k hk hk' l' r2, h3, List.map_filterMap]
  have keyo : effs 3 (ordered w) l' = todo.filterMap (ordered w) := by
    have := key (fun o => o) 3 (by omega) (by omega)
    simpa using this
  obtain ⟨s, g1, g2, g3⟩ := h2.carts
  refine ⟨by rw [r1, h3], h2.users, by rw [← keyo]; exact h2.orders, by rw [← key _ 1 (by omega) (by omega)]; exact h2.queue,
    by rw [← key _ 2 (by omega) (by omega)]; exact h2.shipments, ?_, ?_⟩
  · intro j hj hs
    rw [← h3] at hj
    obtain ⟨t, ht, rfl⟩ := List.mem_map.1 hj
    rw [Cart.get_items g1, g2 t ht]
    rcases r2 t ht with ⟨k1, -⟩ | ⟨-, k1⟩
    · rw [k1] at hs; cases hs
    · exact k1
  · intro c hc'
    rw [Cart.get_items g1, Cart.get_items hs0, g3]
    intro t ht h4
    refine hc' t.1 (by rw [← h3]; exact List.mem_map_of_mem ht) ?_
    rcases r2 t ht with ⟨-, k1⟩ | ⟨⟨o, ho⟩, -⟩
    · omega
    · simp [ho]

/-! ### The same customer -/

private theorem together_trans {S R : Type} {s s' s'' : S} {a b c : List (Prog S R)} (h : Together s a s' b) (h' : Together s' b s'' c) :
    Together s a s'' c := by
  induction h with
  | none => exact h'
  | call a b f k s s' ps' _ ih => exact .call a b f k s s'' c (ih h')

private theorem together_run {S R : Type} (a b : List (Prog S R)) (p : Prog S R) : ∀ s : S,
    Together s (a ++ p :: b) (p.run works s).1 (a ++ .ret (p.run works s).2 :: b) := by
  induction p with
  | ret r => intro s; exact .none _ _
  | call f k ih =>
    intro s
    have := ih (f s).2 (f s).1
    exact .call a b f k s _ _ this

/-- C143 refuted: two calls of `NewOrder` for the same cart at the same time may both place an order for all the items of the cart, although
one after the other the second is refused. -/
theorem C143_twice_refuted (w : World F P) (hr : Reached w) (j : Job P) (o : Order P) (h : (alone w j).2 = .placed o)
    (hj : j.Sound) (hc : j.q.cartID = j.q.customerID) (uuid date : Name) :
    ∃ w' o', Together w [newOrderP j, newOrderP { j with uuid := uuid, date := date }] w' [.ret (.ok o), .ret (.ok o')] ∧
      o'.items = o.items ∧ o.items ≠ [] ∧ w'.orders = w.orders ++ [o, o'] ∧
      (alone (alone w j).1 { j with uuid := uuid, date := date }).2 = .error := by
  obtain ⟨⟨h1, h2, -⟩, w1, hw1, p1, -, -, -, p2, -⟩ := C80_placed w hr j.limit j.q Faults.none j.uuid j.date o h
  have hw1 : (alone w j).1 = w1 := hw1
  have hr1 : Reached w1 := by
    have := reached_call hr (.order j.limit j.q Faults.none j.uuid j.date)
    rw [← hw1]
    exact this
  have hg : j.q.customerID ≠ [] ∧ j.q.addressID ≠ [] ∧ j.q.cardID ≠ [] ∧ j.q.cartID ≠ [] := by
    refine Decidable.byContradiction fun hg => ?_
    rw [alone_none ((new_missing (F := F) j hg).2 w)] at h
    cases h
  obtain ⟨⟨s0, hs0⟩, -⟩ := reached_ok hr
  cases hf : fetch w j.q Faults.none with
  | none => rw [alone_none hf] at h; cases h
  | some f =>
    have ha : authorise j.limit (calculateTotal f.items) = some true := by
      refine Decidable.byContradiction fun ha => ?_
      rw [alone_unpaid hf ha] at h
      cases h
    have ho : o = j.placing f := by
      rw [alone_placed hs0 hf ha] at h
      cases h
      rfl
    let j' : Job P := { j with uuid := uuid, date := date }
    obtain ⟨⟨s1, hs1⟩, -⟩ := reached_ok hr1
    obtain ⟨db', e, -⟩ := Cart.shows_delete hs1 j.q.customerID
    -- the second call up to the payment
    have first : Together w [newOrderP j, newOrderP j'] w [newOrderP j, placeP j' f] := by
      rw [new_given j' hg]
      have go : ∀ (ks : List Part) (g : Got P), (∀ x, x ∈ ks ∨ IsSet w j'.q g x) →
          Together w [newOrderP j, fetchP j' ks g] w [newOrderP j, placeP j' f] := by
        intro ks
        induction ks with
        | nil =>
          intro g hs
          have : check g.items g.users g.addresses g.cards = some f := (check_set hs hg).trans hf
          simp only [fetchP, this]
          exact .none _ _
        | cons k ks ih => intro g hs; exact .call [_] [] _ _ _ _ _ (ih _ (isSet_look hs))
      exact go _ _ (sound_all (j := j') hj w _)
    have second := together_run [] [placeP j' f] (newOrderP j) w
    rw [run_works w j hj, h, hw1] at second
    have third := together_run [.ret (.ok o)] [] (placeP j' f) w1
    have e3 : (placeP j' f).run works w1 = ((⟨db', w1.users, w1.queue ++ [j'.shipment], w1.shipments ++ [j'.shipment],
        w1.orders ++ [j'.placing f]⟩ : World F P), .ok (j'.placing f)) := by
      simp only [placeP, Prog.run, works, ha, j', pushP, storeP, insertP, deleteP, pushShipment, insertShipment, insertOrder, orErr, deleteC, e]
    rw [e3] at third
    refine ⟨_, j'.placing f, together_trans first (together_trans second third), by rw [ho]; rfl, h2, by simp [p1], ?_⟩
    rw [hw1]
    have hcart : Cart.getCartItems (P := P) w1.carts j'.q.cartID = .items [] := by
      show Cart.getCartItems (P := P) w1.carts j.q.cartID = .items []
      rw [hc]
      exact p2
    cases hf1 : fetch w1 j'.q Faults.none with
    | none => exact alone_none hf1
    | some g =>
      rw [fetch_check w1 j'.q hg, hcart] at hf1
      simp only [check] at hf1
      split at hf1
      · rename_i e1 _ _ _
        cases e1
        simp at hf1
      · cases hf1

end Verif.Orders
