import Verif.Users.Props
import Verif.Trains.FailProps
/-
C141: the user service of SockShop when calls of the database fail.  The calls of the database and their replies are those of
`Trains/Programs.lean`; what the calls do is what `Users/Model.lean` says of them.

Simplifications: those of `Users/Model.lean`; a find and the reading of its cursor are one call; what is returned next to an error is left
out.  The ObjectIDs that a method makes are numbers from `n` on, where `n` is the first that has not been stored yet.
-/
namespace Verif.Users
open Lib
open Verif.NoSQL (Ret)
open Verif.Trains (Prog orErr reading writing works Faithful Careful done withFailures AsIf)
variable [Lib]

/-- What a method returns. -/
def ofReply : Reply → Ret Reply
  | .error => .error
  | .panic => .panic
  | r => .ok r

/-! ### The methods, call by call -/

/-- `getAddresses` and `getCards` (addressesdb.go lines 49-77, cardsdb.go lines 49-77), and what the caller does with the result. -/
def fetchP {α : Type} (coll : State → List (Nat × α)) (hs : List Str) (k : Ret (List (Str × α)) → Prog State Reply) : Prog State Reply :=
  if hs = [] then k (.ok [])
  else match hexToObjectIds hs with
    | none => k .error
    | some ids => .call (fun s => (s, .ok (((coll s).filter fun e => ids.contains e.1).map fun e => (hex e.1, e.2)))) k

/-- The end of `Login` (userservice.go lines 130-133) when `getUserAttributes` returns an error: the cards have identifiers only, and their
empty numbers are masked before the error is returned. -/
def loginError (v : User) : Prog State Reply := .ret (match maskCCs v.cards with
  | some _ => .error
  | none => .panic)

/-- `Login` (lines 118-134) with `getUserByName` (userdb.go lines 79-96) and `getUserAttributes` (lines 147-163). -/
def loginP (username password : Str) : Prog State Reply :=
  reading (fun s => .ok ((s.users.find? fun u => u.person.username = username).getD DbUser.zero)) fun u =>
    if u.password ≠ hash password u.salt then .ret .error
    else
      let v := addUserIDs u
      fetchP State.addresses (v.addresses.map (·.1)) fun
        | .ok as => fetchP State.cards (v.cards.map (·.1)) fun
          | .ok cs => .ret (match maskCCs cs with
            | none => .panic
            | some cs => .ok (.user { v with addresses := as, cards := cs }))
          | _ => loginError v
        | _ => loginError v

/-- `s.c.UpsertID` of a new address, card or user, whose ObjectID is not in the collection. -/
def putCard (i : Nat) (c : Card) (s : State) : State × Ret Unit :=
  ({ s with cards := s.cards ++ [(i, c)], next := max s.next (i + 1) }, .ok ())
def putAddress (i : Nat) (a : Address) (s : State) : State × Ret Unit :=
  ({ s with addresses := s.addresses ++ [(i, a)], next := max s.next (i + 1) }, .ok ())
def putUser (u : DbUser) (s : State) : State × Ret Unit :=
  ({ s with users := s.users ++ [u], next := max s.next (u.id + 1) }, .ok ())

/-- `createAddresses` and `createCards` (addressesdb.go lines 112-131, cardsdb.go lines 112-131), and what follows. -/
def createManyP {α : Type} (put : Nat → α → State → State × Ret Unit) (i : Nat) : List α → Prog State Reply → Prog State Reply
  | [], k => k
  | a :: as, k => .call (put i a) (orErr fun () => createManyP put (i + 1) as k)

/-- `removeAddresses` and `removeCards` (lines 142-144 of both files). -/
def dropAddresses (ids : List Nat) (s : State) : State × Ret Unit := ({ s with addresses := removeIds ids s.addresses }, .ok ())
def dropCards (ids : List Nat) (s : State) : State × Ret Unit := ({ s with cards := removeIds ids s.cards }, .ok ())

/-- The clean-up of `createUser` (userdb.go lines 67-72), whose errors are ignored. -/
def cleanupP (addressIDs cardIDs : List Nat) : Prog State Reply :=
  .call (dropAddresses addressIDs) fun _ => .call (dropCards cardIDs) fun _ => .ret .error

/-- `createUser` (lines 52-77). -/
def createUserP (n : Nat) (p : Person) (password salt : Str) (as : List Address) (cs : List Card) : Prog State Reply :=
  let cardIDs := List.range' (n + 1) cs.length
  let addressIDs := List.range' (n + 1 + cs.length) as.length
  createManyP putCard (n + 1) cs (createManyP putAddress (n + 1 + cs.length) as
    (.call (putUser ⟨n, p, password, salt, addressIDs, cardIDs⟩) fun
      | .ok () => .ret (.ok (.id (hex n)))
      | .error => cleanupP addressIDs cardIDs
      | .panic => .ret .panic))

/-- `getUsers` and `getUser` (userdb.go lines 99-144). -/
def getUsersP (userid : Str) : Prog State Reply :=
  if userid = [] then reading (fun s => .ok (s.users.map addUserIDs)) fun us => .ret (.ok (.users us))
  else match fromHex userid with
    | none => .ret .error
    | some id => reading (fun s => .ok (addUserIDs ((s.users.find? fun u => u.id = id).getD DbUser.zero))) fun u => .ret (.ok (.users [u]))

/-- `getAllAddresses`, `getAddress`, `getAllCards` and `getCard`. -/
def lookP {α : Type} (zero : α) (coll : State → List (Nat × α)) (reply : List (Str × α) → Reply) (h : Str) : Prog State Reply :=
  if h = [] then reading (fun s => .ok (getAll (coll s))) fun l => .ret (.ok (reply l))
  else match fromHex h with
    | none => .ret .error
    | some id => reading (fun s => .ok (match (coll s).find? fun e => e.1 = id with
      | some e => (hex e.1, e.2)
      | none => (hex 0, zero))) fun e => .ret (.ok (reply [e]))

/-- `UpdateOne` of the user with an ObjectID, with `$addToSet`. -/
def linkCard (id i : Nat) (s : State) : State × Ret Unit :=
  ({ s with users := updateUser id (fun u => { u with cards := addToSet i u.cards }) s.users }, .ok ())
def linkAddress (id i : Nat) (s : State) : State × Ret Unit :=
  ({ s with users := updateUser id (fun u => { u with addresses := addToSet i u.addresses }) s.users }, .ok ())

/-- `PostCard` with `createCard` (userdb.go lines 166-191), and `PostAddress` with `createAddress` (lines 194-219). -/
def postP {α : Type} (put : Nat → α → State → State × Ret Unit) (link : Nat → Nat → State → State × Ret Unit) (n : Nat) (userid : Str)
    (a : α) : Prog State Reply :=
  if userid = [] then writing (put n a) (.id (hex n))
  else match fromHex userid with
    | none => .ret .error
    | some id => .call (put n a) (orErr fun () => writing (link id n) (.id (hex n)))

/-- `s.customers.DeleteMany(ctx, bson.D{{"_id", id}})` -/
def dropUser (id : Nat) (s : State) : State × Ret Unit := ({ s with users := s.users.filter fun u => u.id ≠ id }, .ok ())

/-- `deleteUser` (lines 234-265). -/
def deleteUserP (h : Str) : Prog State Reply :=
  match fromHex h with
  | none => .ret .error
  | some id => reading (fun s => .ok (addUserIDs ((s.users.find? fun u => u.id = id).getD DbUser.zero))) fun u =>
    match hexToObjectIds (u.addresses.map (·.1)) with
    | none => .ret .error
    | some as => .call (dropAddresses as) (orErr fun () => match hexToObjectIds (u.cards.map (·.1)) with
      | none => .ret .error
      | some cs => .call (dropCards cs) (orErr fun () => writing (dropUser id) .done))

/-- `deleteAttr` (lines 287-298). -/
def pullAddress (id : Nat) (s : State) : State × Ret Unit :=
  ({ s with users := s.users.map fun u =>
              if u.addresses.contains id then { u with addresses := u.addresses.filter (· ≠ id) } else u }, .ok ())
def pullCard (id : Nat) (s : State) : State × Ret Unit :=
  ({ s with users := s.users.map fun u =>
              if u.cards.contains id then { u with cards := u.cards.filter (· ≠ id) } else u }, .ok ())

/-- `deleteAddress` and `deleteCard` (lines 267-285). -/
def deleteP (pull : Nat → State → State × Ret Unit) (drop : List Nat → State → State × Ret Unit) (h : Str) : Prog State Reply :=
  match fromHex h with
  | none => .ret .error
  | some id => .call (pull id) (orErr fun () => writing (drop [id]) .done)

/-- One call, with the first ObjectID that it makes. -/
def callP (n : Nat) : Op → Prog State Reply
  | .login u p => loginP u p
  | .register p pw salt => createUserP n p (hash pw salt) salt [] []
  | .postUser p pw salt as cs => createUserP n p (hash pw salt) salt as cs
  | .getUsers id => getUsersP id
  | .getAddresses id => lookP zeroAddress State.addresses .addresses id
  | .postAddress u a => postP putAddress linkAddress n u a
  | .getCards id => lookP zeroCard State.cards .cards id
  | .postCard u c => postP putCard linkCard n u c
  | .deleteUser id => deleteUserP id
  | .deleteAddress id => deleteP pullAddress dropAddresses id
  | .deleteCard id => deleteP pullCard dropCards id
  | .deleteOther => .ret .error

/-- The call of `Users/Model.lean`, with its reply as a result. -/
def called (s : State) (op : Op) : State × Ret Reply := ((call s op).1, ofReply (call s op).2)

/-- A call when the database replies as `o` says. -/
def callF (s : State) (op : Op) (o : Nat → Trains.Reply) : State × Ret Reply := (callP s.next op).run o s

/-! ### When everything works -/

private theorem many_works {α : Type} (put : Nat → α → State → State × Ret Unit) (h : ∀ i a s, (put i a s).2 = .ok ()) (k : Prog State Reply) :
    ∀ (as : List α) (i : Nat) (s : State), (createManyP put i as k).run works s =
      k.run works (as.zipIdx.foldl (fun s a => (put (i + a.2) a.1 s).1) s) := by
  intro as
  induction as with
  | nil => intros; rfl
  | cons a as ih =>
    intro i s
    simp only [createManyP, Prog.run, works, h, orErr, List.zipIdx_cons, List.foldl_cons, Nat.add_zero]
    show (createManyP put (i + 1) as k).run works _ = _
    rw [ih, List.zipIdx_succ, List.foldl_map]
    simp only [Nat.add_assoc, Nat.add_comm 1]

theorem cards_put : ∀ (cs : List Card) (i : Nat) (s : State), s.next ≤ i →
    cs.zipIdx.foldl (fun s a => (putCard (i + a.2) a.1 s).1) s =
      { s with cards := (createMany s.cards i cs).1, next := if cs = [] then s.next else i + cs.length } ∧
      (createMany s.cards i cs).2 = (i + cs.length, List.range' i cs.length) := by
  intro cs
  induction cs with
  | nil => intros; exact ⟨rfl, rfl⟩
  | cons c cs ih =>
    intro i s hi
    have := ih (i + 1) (putCard i c s).1 (by simp only [putCard]; omega)
    simp only [List.zipIdx_cons, List.foldl_cons, Nat.add_zero, createMany]
    rw [List.zipIdx_succ, List.foldl_map]
    simp only [Nat.add_assoc, Nat.add_comm 1] at this ⊢
    rw [this.1]
    simp only [putCard] at this ⊢
    simp only [this.2]
    refine ⟨?_, by simp [List.range'_succ]⟩
    congr 1
    by_cases h : cs = []
    · subst h; simp; omega
    · simp [h]

theorem addresses_put : ∀ (cs : List Address) (i : Nat) (s : State), s.next ≤ i →
    cs.zipIdx.foldl (fun s a => (putAddress (i + a.2) a.1 s).1) s =
      { s with addresses := (createMany s.addresses i cs).1, next := if cs = [] then s.next else i + cs.length } ∧
      (createMany s.addresses i cs).2 = (i + cs.length, List.range' i cs.length) := by
  intro cs
  induction cs with
  | nil => intros; exact ⟨rfl, rfl⟩
  | cons c cs ih =>
    intro i s hi
    have := ih (i + 1) (putAddress i c s).1 (by simp only [putAddress]; omega)
    simp only [List.zipIdx_cons, List.foldl_cons, Nat.add_zero, createMany]
    rw [List.zipIdx_succ, List.foldl_map]
    simp only [Nat.add_assoc, Nat.add_comm 1] at this ⊢
    rw [this.1]
    simp only [putAddress] at this ⊢
    simp only [this.2]
    refine ⟨?_, by simp [List.range'_succ]⟩
    congr 1
    by_cases h : cs = []
    · subst h; simp; omega
    · simp [h]

private theorem create_works (s : State) (p : Person) (pw salt : Str) (as : List Address) (cs : List Card) :
    (createUserP s.next p pw salt as cs).run works s =
      ((createUser s p pw salt as cs).1, ofReply (createUser s p pw salt as cs).2) := by
  simp only [createUserP]
  rw [many_works putCard (fun _ _ _ => rfl), many_works putAddress (fun _ _ _ => rfl)]
  obtain ⟨c1, c2⟩ := cards_put cs (s.next + 1) s (by omega)
  rw [c1]
  obtain ⟨a1, a2⟩ := addresses_put as (s.next + 1 + cs.length) { s with cards := (createMany s.cards (s.next + 1) cs).1, next := if cs = [] then s.next else s.next + 1 + cs.length } (by simp only; split <;> omega)
  rw [a1]
  simp only [createUser, c2, a2, Prog.run, putUser, works, ofReply]
  refine Prod.ext ?_ rfl
  simp only
  congr 1
  by_cases h : as = []
  · subst h
    by_cases h : cs = []
    · subst h; simp
    · simp [h]
  · simp [h]
    omega

private theorem fetch_works {α : Type} (coll : State → List (Nat × α)) (l : List Nat) (k : Ret (List (Str × α)) → Prog State Reply) (s : State) :
    ∃ r, getByIds (coll s) (l.map hex) = some r ∧ (fetchP coll (l.map hex) k).run works s = (k (.ok r)).run works s := by
  cases l with
  | nil => exact ⟨[], rfl, rfl⟩
  | cons i l =>
    have : hexToObjectIds ((i :: l).map hex) = some (i :: l) := hexToObjectIds_hex _
    simp only [List.map_cons] at this ⊢
    refine ⟨((coll s).filter fun e => (i :: l).contains e.1).map fun e => (hex e.1, e.2), by simp only [getByIds, this], ?_⟩
    simp only [fetchP, this, reduceCtorEq, if_false]
    rfl

private theorem login_works (u p : Str) (s : State) : (loginP u p).run works s = (s, ofReply (login s u p)) := by
  simp only [loginP, Trains.run_reading, login]
  generalize (s.users.find? fun u' => decide (u'.person.username = u)).getD DbUser.zero = v
  by_cases h : v.password ≠ hash p v.salt
  · rw [if_pos h, if_pos h]; rfl
  · rw [if_neg h, if_neg h]
    have e1 : (addUserIDs v).addresses.map (·.1) = v.addresses.map hex := by simp [addUserIDs, Function.comp_def]
    have e2 : (addUserIDs v).cards.map (·.1) = v.cards.map hex := by simp [addUserIDs, Function.comp_def]
    simp only [e1, e2]
    obtain ⟨as, ha, hr⟩ := fetch_works State.addresses v.addresses (fun
        | .ok as => fetchP State.cards (v.cards.map hex) fun
          | .ok cs => .ret (match maskCCs cs with
            | none => .panic
            | some cs => .ok (.user { addUserIDs v with addresses := as, cards := cs }))
          | _ => loginError (addUserIDs v)
        | _ => loginError (addUserIDs v)) s
    refine Eq.trans ?_ (hr.trans ?_)
    · congr 1
    · rw [ha]
      obtain ⟨cs, hc, hr⟩ := fetch_works State.cards v.cards (fun
          | .ok cs => .ret (match maskCCs cs with
            | none => .panic
            | some cs => .ok (.user { addUserIDs v with addresses := as, cards := cs }))
          | _ => loginError (addUserIDs v)) s
      refine Eq.trans ?_ (hr.trans ?_)
      · simp only
      · rw [hc]
        simp only [Prog.run]
        cases maskCCs cs <;> rfl

theorem callF_works (s : State) (op : Op) : callF s op works = called s op := by
  cases op with
  | login u p => exact login_works u p s
  | register p pw salt => exact create_works s p _ salt [] []
  | postUser p pw salt as cs => exact create_works s p _ salt as cs
  | getUsers id =>
    simp only [callF, callP, getUsersP, called, call, getUsers]
    by_cases h : id = []
    · simp only [if_pos h]; rfl
    · simp only [if_neg h]
      cases fromHex id <;> rfl
  | getAddresses id =>
    simp only [callF, callP, lookP, called, call, getAddresses, getById]
    by_cases h : id = []
    · simp only [if_pos h]; rfl
    · simp only [if_neg h]
      cases fromHex id with
      | none => rfl
      | some n => simp only [Trains.run_reading]; cases s.addresses.find? fun e => decide (e.1 = n) <;> rfl
  | getCards id =>
    simp only [callF, callP, lookP, called, call, getCards, getById]
    by_cases h : id = []
    · simp only [if_pos h]; rfl
    · simp only [if_neg h]
      cases fromHex id with
      | none => rfl
      | some n => simp only [Trains.run_reading]; cases s.cards.find? fun e => decide (e.1 = n) <;> rfl
  | postAddress u a =>
    simp only [callF, callP, postP, called, call, postAddress]
    by_cases h : u = []
    · simp only [if_pos h]
      simp [writing, Prog.run, putAddress, works, orErr, ofReply, Nat.max_eq_right (Nat.le_succ s.next)]
    · simp only [if_neg h]
      cases fromHex u with
      | none => rfl
      | some n => simp [writing, Prog.run, putAddress, linkAddress, works, orErr, ofReply, Nat.max_eq_right (Nat.le_succ s.next)]
  | postCard u a =>
    simp only [callF, callP, postP, called, call, postCard]
    by_cases h : u = []
    · simp only [if_pos h]
      simp [writing, Prog.run, putCard, works, orErr, ofReply, Nat.max_eq_right (Nat.le_succ s.next)]
    · simp only [if_neg h]
      cases fromHex u with
      | none => rfl
      | some n => simp [writing, Prog.run, putCard, linkCard, works, orErr, ofReply, Nat.max_eq_right (Nat.le_succ s.next)]
  | deleteUser id =>
    simp only [callF, callP, deleteUserP, called, call, deleteUser]
    cases fromHex id with
    | none => rfl
    | some n =>
      simp only [Trains.run_reading]
      cases hexToObjectIds _ with
      | none => rfl
      | some as =>
        simp only [Prog.run, works, dropAddresses, orErr]
        cases hexToObjectIds _ with
        | none => rfl
        | some cs => rfl
  | deleteAddress id =>
    simp only [callF, callP, deleteP, called, call, deleteAddress]
    cases fromHex id <;> rfl
  | deleteCard id =>
    simp only [callF, callP, deleteP, called, call, deleteCard]
    cases fromHex id <;> rfl
  | deleteOther => rfl

end Verif.Users
