import Verif.Users.Fail
/-
C141: what the user service of SockShop keeps when calls of the database fail.
-/
namespace Verif.Users
open Lib
open Verif.NoSQL (Ret)
open Verif.Trains (Prog orErr reading writing works Careful done withFailures AsIf)
variable [Lib]

/-! ### Calls that write at most once -/

/-- Calls that write at most once: without deletions, and cards and addresses that are posted for nobody. -/
def Simple : Op → Prop
  | .register _ _ _ => True
  | .getUsers _ => True
  | .getAddresses _ => True
  | .getCards _ => True
  | .postAddress u _ => u = []
  | .postCard u _ => u = []
  | .deleteOther => True
  | _ => False

theorem removeIds_nil {α : Type} (l : List (Nat × α)) : removeIds [] l = l := by simp [removeIds]

theorem removeIds_idem {α : Type} (ids : List Nat) (l : List (Nat × α)) : removeIds ids (removeIds ids l) = removeIds ids l := by
  simp [removeIds]

theorem callF_unhit (s : State) (op : Op) (o : Nat → Trains.Reply) (h : (callP s.next op).hit o s = false) : callF s op o = called s op := by
  rw [callF, Trains.run_unhit _ _ _ h]; exact callF_works s op

private theorem careful_hit {s : State} {op : Op} {o : Nat → Trains.Reply} (hc : Careful (callP s.next op))
    (h : (callP s.next op).hit o s = true) : (callF s op o).2 = .error ∧
      ((callF s op o).1 = s ∨ (callF s op o).1 = (call s op).1 ∧ ∃ i, o i = .lost) := by
  have := hc.hit o s h
  have e : (callP s.next op).run works s = called s op := callF_works s op
  rw [e] at this
  exact this

private theorem run_cleanup_nil (o : Nat → Trains.Reply) (s : State) : (cleanupP [] []).run o s = (s, .error) := by
  have e1 : dropAddresses [] s = (s, .ok ()) := by simp [dropAddresses, removeIds_nil]
  have e2 : dropCards [] s = (s, .ok ()) := by simp [dropCards, removeIds_nil]
  simp only [cleanupP, Prog.run]
  cases o 0 <;> simp only [e1, Prog.run] <;> cases o (0 + 1) <;> simp only [e2]

/-- C141: a call that writes at most once does what it does without failures if no database call fails.  Otherwise it returns an error, and
has had no effect or, if the database did what it was asked but the reply was lost, its whole effect. -/
theorem C141_simple_partial (s : State) (op : Op) (hs : Simple op) (o : Nat → Trains.Reply) :
    ((callP s.next op).hit o s = false → callF s op o = called s op) ∧
    ((callP s.next op).hit o s = true → (callF s op o).2 = .error ∧
      ((callF s op o).1 = s ∨ (callF s op o).1 = (call s op).1 ∧ ∃ i, o i = .lost)) := by
  refine ⟨callF_unhit s op o, fun h => ?_⟩
  cases op with
  | register p pw salt =>
    have e : (call s (.register p pw salt)).1 = (putUser ⟨s.next, p, hash pw salt, salt, [], []⟩ s).1 := by
      have := congrArg Prod.fst (callF_works s (.register p pw salt))
      exact this.symm
    simp only [callF, callP, createUserP, createManyP, List.length_nil, List.range'_zero, Prog.run, Prog.hit] at h ⊢
    cases ho : o 0 with
    | works => rw [ho] at h; cases h
    | fails => simp only [run_cleanup_nil]; exact ⟨trivial, .inl trivial⟩
    | lost => simp only [run_cleanup_nil]; exact ⟨trivial, .inr ⟨e.symm, 0, ho⟩⟩
  | getUsers id =>
    refine careful_hit ?_ h
    simp only [callP, getUsersP]
    split
    · exact Trains.careful_reading _ fun _ => .ret _
    · split
      · exact .ret _
      · exact Trains.careful_reading _ fun _ => .ret _
  | getAddresses id =>
    refine careful_hit ?_ h
    simp only [callP, lookP]
    split
    · exact Trains.careful_reading _ fun _ => .ret _
    · split
      · exact .ret _
      · exact Trains.careful_reading _ fun _ => .ret _
  | getCards id =>
    refine careful_hit ?_ h
    simp only [callP, lookP]
    split
    · exact Trains.careful_reading _ fun _ => .ret _
    · split
      · exact .ret _
      · exact Trains.careful_reading _ fun _ => .ret _
  | postAddress u a =>
    refine careful_hit ?_ h
    simp only [Simple] at hs
    simp only [callP, postP, if_pos hs]
    exact Trains.careful_writing _ _
  | postCard u a =>
    refine careful_hit ?_ h
    simp only [Simple] at hs
    simp only [callP, postP, if_pos hs]
    exact Trains.careful_writing _ _
  | deleteOther => cases h
  | login => cases hs
  | postUser => cases hs
  | deleteUser => cases hs
  | deleteAddress => cases hs
  | deleteCard => cases hs

/-- One call of a history, with what the database replies. -/
def stepF (s : State) (op : Op) (o : Nat → Trains.Reply) : State × Bool := done (callF s op o)

/-- C141: after any history of such calls with failures, the database is as after a history without failures that leaves out only calls that
returned an error. -/
theorem C141_history_partial (history : List (Op × (Nat → Trains.Reply))) (h : ∀ c ∈ history, Simple c.1) :
    AsIf (fun ops => (calls State.init ops).1) history (withFailures stepF State.init history) := by
  have e : ∀ (ops : List Op) (s : State), (calls s ops).1 = ops.foldl (fun s op => (call s op).1) s := by
    intro ops
    induction ops with
    | nil => intro; rfl
    | cons o ops ih => intro s; simp only [calls, List.foldl_cons]; exact ih _
  simp only [e]
  generalize State.init = s
  induction history generalizing s with
  | nil => exact ⟨[], rfl, .slnil, .slnil⟩
  | cons c rest ih =>
    obtain ⟨op, o⟩ := c
    obtain ⟨ops, h1, h2, h3⟩ := ih (fun c hc => h c (.tail _ hc)) (stepF s op o).1
    simp only [withFailures]
    obtain ⟨g1, g2⟩ := C141_simple_partial s op (h _ (.head _)) o
    by_cases e : (stepF s op o).1 = (call s op).1
    · refine ⟨op :: ops, ?_, h2.cons_cons op, ?_⟩
      · rw [h1, e]; rfl
      · cases (stepF s op o).2
        · exact h3.cons op
        · exact h3.cons_cons op
    · cases hh : (callP s.next op).hit o s with
      | false => exact absurd (congrArg Prod.fst (g1 hh)) e
      | true =>
        obtain ⟨k1, k2⟩ := g2 hh
        have k3 : (stepF s op o).1 = s := by
          rcases k2 with k2 | ⟨k2, -⟩
          · exact k2
          · exact absurd k2 e
        have k4 : (stepF s op o).2 = false := by simp [stepF, done, k1]
        rw [k3] at h1
        refine ⟨ops, by rw [k3]; exact h1, h2.cons op, ?_⟩
        rw [k4, k3]
        rw [k3] at h3
        exact h3

/-! ### Login -/

private theorem fetch_hit {α : Type} (coll : State → List (Nat × α)) (hs : List Str) (k : Ret (List (Str × α)) → Prog State Reply)
    (o : Nat → Trains.Reply) (s : State) :
    ∃ r o', (fetchP coll hs k).run o s = (k r).run o' s ∧ ((fetchP coll hs k).hit o s = true → r = .error ∨ (k r).hit o' s = true) := by
  unfold fetchP
  by_cases h : hs = []
  · simp only [if_pos h]; exact ⟨_, o, rfl, .inr⟩
  · simp only [if_neg h]
    cases hexToObjectIds hs with
    | none => exact ⟨_, o, rfl, fun _ => .inl rfl⟩
    | some ids =>
      simp only [Prog.run, Prog.hit]
      cases o 0 with
      | works => exact ⟨_, _, rfl, .inr⟩
      | fails => exact ⟨_, _, rfl, fun _ => .inl rfl⟩
      | lost => exact ⟨_, _, rfl, fun _ => .inl rfl⟩

private theorem mask_ids (l : List Nat) : maskCCs (l.map fun i => (hex i, zeroCard)) = if l = [] then some [] else none := by
  cases l with
  | nil => rfl
  | cons i l => simp [maskCCs, maskCC, zeroCard]

private theorem run_loginError (w : DbUser) (o : Nat → Trains.Reply) (s : State) :
    (loginError (addUserIDs w)).run o s = (s, if w.cards = [] then .error else .panic) := by
  simp only [loginError, addUserIDs, mask_ids, Prog.run]
  by_cases h : w.cards = []
  · simp only [if_pos h]
  · simp only [if_neg h]

/-- The user that `getUserByName` returns. -/
private abbrev named (s : State) (u : Str) : DbUser := (s.users.find? fun w => w.person.username = u).getD DbUser.zero

/-- The part of `Login` after the check of the password. -/
private def rest (w : DbUser) : Prog State Reply :=
  fetchP State.addresses ((addUserIDs w).addresses.map (·.1)) fun
    | .ok as => fetchP State.cards ((addUserIDs w).cards.map (·.1)) fun
      | .ok cs => .ret (match maskCCs cs with
        | none => .panic
        | some cs => .ok (.user { addUserIDs w with addresses := as, cards := cs }))
      | _ => loginError (addUserIDs w)
    | _ => loginError (addUserIDs w)

private theorem login_cases (s : State) (u p : Str) (o : Nat → Trains.Reply) :
    ((loginP u p).run o s = (s, .error) ∧ (o 0 ≠ .works ∨ (named s u).password ≠ hash p (named s u).salt)) ∨
    (o 0 = .works ∧ (named s u).password = hash p (named s u).salt ∧
      (loginP u p).run o s = (rest (named s u)).run (fun i => o (i + 1)) s ∧
      (loginP u p).hit o s = (rest (named s u)).hit (fun i => o (i + 1)) s) := by
  simp only [loginP, reading, Prog.run, Prog.hit]
  cases ho : o 0 with
  | fails => exact .inl ⟨rfl, .inl (by simp)⟩
  | lost => exact .inl ⟨rfl, .inl (by simp)⟩
  | works =>
    simp only [orErr]
    by_cases h : (named s u).password = hash p (named s u).salt
    · refine .inr ⟨trivial, h, ?_, ?_⟩
      · rw [if_neg (by simpa using h)]; rfl
      · rw [if_neg (by simpa using h)]; rfl
    · left
      rw [if_pos h]
      exact ⟨rfl, .inr h⟩

private theorem rest_run (w : DbUser) (o : Nat → Trains.Reply) (s : State) :
    (((rest w).run o s).1 = s) ∧
    ((rest w).hit o s = true → (rest w).run o s = (s, if w.cards = [] then .error else .panic)) ∧
    (∀ v, ((rest w).run o s).2 = .ok (.user v) → v.person = w.person ∧ v.id = hex w.id) := by
  obtain ⟨r, o1, h1, h2⟩ := fetch_hit State.addresses ((addUserIDs w).addresses.map (·.1)) (fun
    | .ok as => fetchP State.cards ((addUserIDs w).cards.map (·.1)) fun
      | .ok cs => .ret (match maskCCs cs with
        | none => .panic
        | some cs => .ok (.user { addUserIDs w with addresses := as, cards := cs }))
      | _ => loginError (addUserIDs w)
    | _ => loginError (addUserIDs w)) o s
  unfold rest
  rw [h1]
  have bad : ∀ (o : Nat → Trains.Reply) (v : User), ((loginError (addUserIDs w)).run o s).2 ≠ .ok (.user v) := by
    intro o v
    rw [run_loginError]
    by_cases h : w.cards = []
    · simp [h]
    · simp [h]
  cases r with
  | error => exact ⟨by simp only [run_loginError], fun _ => run_loginError w o1 s, fun v hv => absurd hv (bad _ v)⟩
  | panic =>
    exact ⟨by simp only [run_loginError], fun h => run_loginError w o1 s, fun v hv => absurd hv (bad _ v)⟩
  | ok as =>
    obtain ⟨r, o2, g1, g2⟩ := fetch_hit State.cards ((addUserIDs w).cards.map (·.1)) (fun
      | .ok cs => .ret (match maskCCs cs with
        | none => .panic
        | some cs => .ok (.user { addUserIDs w with addresses := as, cards := cs }))
      | _ => loginError (addUserIDs w)) o1 s
    simp only at h2 ⊢
    rw [g1]
    cases r with
    | error => exact ⟨by simp only [run_loginError], fun _ => run_loginError w o2 s, fun v hv => absurd hv (bad _ v)⟩
    | panic => exact ⟨by simp only [run_loginError], fun _ => run_loginError w o2 s, fun v hv => absurd hv (bad _ v)⟩
    | ok cs =>
      refine ⟨rfl, fun h => ?_, fun v hv => ?_⟩
      · rcases h2 h with h | h
        · cases h
        · rcases g2 h with h | h <;> cases h
      · simp only [Prog.run] at hv
        cases hm : maskCCs cs with
        | none => rw [hm] at hv; cases hv
        | some cs => rw [hm] at hv; cases hv; exact ⟨rfl, rfl⟩

private theorem rest_fails (w : DbUser) (o : Nat → Trains.Reply) (s : State) (ho : o 0 ≠ .works) (hw : w.cards ≠ []) :
    (rest w).hit o s = true := by
  have call : ∀ (f : State → State × Ret (List (Str × Address))) (k : Ret (List (Str × Address)) → Prog State Reply),
      (Prog.call f k).hit o s = true := by
    intro f k; simp only [Prog.hit]; cases h : o 0 <;> simp_all
  have call' : ∀ (f : State → State × Ret (List (Str × Card))) (k : Ret (List (Str × Card)) → Prog State Reply),
      (Prog.call f k).hit o s = true := by
    intro f k; simp only [Prog.hit]; cases h : o 0 <;> simp_all
  have e1 : (addUserIDs w).addresses.map (·.1) = w.addresses.map hex := by simp [addUserIDs, Function.comp_def]
  have e2 : (addUserIDs w).cards.map (·.1) = w.cards.map hex := by simp [addUserIDs, Function.comp_def]
  unfold rest
  rw [e1]
  by_cases ha : w.addresses = []
  · rw [ha]
    simp only [List.map_nil, fetchP, if_true, e2, List.map_eq_nil_iff, if_neg hw, hexToObjectIds_hex]
    exact call' _ _
  · simp only [fetchP, List.map_eq_nil_iff, if_neg ha, hexToObjectIds_hex]
    exact call _ _

private theorem named_book {b : Book} {s : State} (h : Rep b s) (u : Str) :
    named s u = ((b.accounts.find? fun a => a.person.username = u).map (row b)).getD DbUser.zero := by
  simp only [named, find_acc h]
  rfl

private theorem zero_password (p : Str) : DbUser.zero.password ≠ hash p DbUser.zero.salt := fun h => hash_ne p _ h.symm

/-- C141: a login in which database calls fail changes nothing, and returns an error if the account has no cards.  Missing from the full
property: accounts with cards, see `C141_login_refuted`. -/
theorem C141_login_partial (os : List Op) (u p : Str) (o : Nat → Trains.Reply) :
    (callF (calls State.init os).1 (.login u p) o).1 = (calls State.init os).1 ∧
    ((callP (calls State.init os).1.next (.login u p)).hit o (calls State.init os).1 = true →
      (∀ a ∈ (Book.empty.history os).accounts, a.person.username = u → a.accepts p → ownedBy a.id (Book.empty.history os).cards = []) →
      (callF (calls State.init os).1 (.login u p) o).2 = .error) := by
  have hr := calls_rep os rep_init
  generalize (calls State.init os).1 = s at *
  generalize Book.empty.history os = b at *
  simp only [callF, callP]
  rcases login_cases s u p o with ⟨h, -⟩ | ⟨-, h1, h2, h3⟩
  · rw [h]; exact ⟨rfl, fun _ _ => rfl⟩
  · obtain ⟨g1, g2, -⟩ := rest_run (named s u) (fun i => o (i + 1)) s
    rw [h2, h3]
    refine ⟨g1, fun hh hc => ?_⟩
    rw [g2 hh]
    rw [named_book hr] at h1 ⊢
    cases hf : b.accounts.find? fun a => a.person.username = u with
    | none => rw [hf] at h1; exact absurd h1 (zero_password p)
    | some a =>
      rw [hf] at h1
      have := hc a (List.mem_of_find?_eq_some hf) (by simpa using List.find?_some hf) h1.symm
      simp [row, this]

/-- C141 refuted: `Login` panics if the user has a card and the database call for the addresses or cards fails: the numbers of the cards,
which have not been read, are masked before the error is returned. -/
theorem C141_login_refuted (os : List Op) (a : Account) (pw : Str) (o : Nat → Trains.Reply)
    (ha : (Book.empty.history os).accounts.find? (fun x => x.person.username = a.person.username) = some a) (hp : a.accepts pw)
    (hc : ∃ e ∈ (Book.empty.history os).cards, e.owner = some a.id) (h0 : o 0 = .works) (h1 : o 1 ≠ .works) :
    (callF (calls State.init os).1 (.login a.person.username pw) o).2 = .panic := by
  have hr := calls_rep os rep_init
  generalize (calls State.init os).1 = s at *
  generalize Book.empty.history os = b at *
  simp only [callF, callP]
  have hn : named s a.person.username = row b a := by rw [named_book hr, ha]; rfl
  have hw : (row b a).cards ≠ [] := by
    obtain ⟨e, he, ho⟩ := hc
    simp only [row, ne_eq, List.map_eq_nil_iff]
    exact List.ne_nil_of_mem (List.mem_filter.2 ⟨he, by simpa using ho⟩)
  rcases login_cases s a.person.username pw o with ⟨-, h | h⟩ | ⟨-, -, h2, -⟩
  · exact absurd h0 h
  · rw [hn] at h; exact absurd hp.symm h
  · obtain ⟨-, g2, -⟩ := rest_run (named s a.person.username) (fun i => o (i + 1)) s
    rw [h2, g2 (rest_fails _ _ _ h1 (by rw [hn]; exact hw)), hn, if_neg hw]

/-! ### Posting for a user -/

private theorem put_card (s : State) (c : Card) : (putCard s.next c s).1 = (call s (.postCard [] c)).1 := by
  simp [putCard, call, postCard, Nat.max_eq_right (Nat.le_succ s.next)]

private theorem put_address (s : State) (a : Address) : (putAddress s.next a s).1 = (call s (.postAddress [] a)).1 := by
  simp [putAddress, call, postAddress, Nat.max_eq_right (Nat.le_succ s.next)]

private theorem run_post {α : Type} {put : Nat → α → State → State × Ret Unit} {link : Nat → Nat → State → State × Ret Unit} {s : State}
    {userid : Str} {a : α} {o : Nat → Trains.Reply} (hp : ∀ i a s, (put i a s).2 = .ok ()) (hl : ∀ i j s, (link i j s).2 = .ok ())
    (h : (postP put link s.next userid a).hit o s = true) :
    ((postP put link s.next userid a).run o s).2 = .error ∧
      (((postP put link s.next userid a).run o s).1 = s ∨ ((postP put link s.next userid a).run o s).1 = (put s.next a s).1 ∨
       ((postP put link s.next userid a).run o s).1 = ((postP put link s.next userid a).run works s).1 ∧ ∃ i, o i = .lost) := by
  unfold postP at h ⊢
  by_cases hu : userid = []
  · simp only [if_pos hu, writing, Prog.hit, Prog.run, works] at h ⊢
    cases ho : o 0 with
    | works => simp only [ho, hp, orErr, Prog.hit] at h; cases h
    | fails => exact ⟨rfl, .inl rfl⟩
    | lost => exact ⟨rfl, .inr (.inl rfl)⟩
  · simp only [if_neg hu] at h ⊢
    cases hf : fromHex userid with
    | none => rw [hf] at h; cases h
    | some id =>
      rw [hf] at h
      simp only [writing, Prog.hit, Prog.run, works, hp, orErr] at h ⊢
      cases ho : o 0 with
      | fails => exact ⟨rfl, .inl rfl⟩
      | lost => exact ⟨rfl, .inr (.inl rfl)⟩
      | works =>
        simp only [ho, hl, hp, Prog.run, Prog.hit] at h ⊢
        cases ho1 : o (0 + 1) with
        | works => rw [ho1] at h; cases h
        | fails => exact ⟨rfl, .inr (.inl rfl)⟩
        | lost => exact ⟨rfl, .inr (.inr ⟨rfl, 1, ho1⟩)⟩

/-- C141: if database calls fail when a card or an address is posted, an error is returned, and the database is as before, as if it had been
posted for nobody, or as if nothing had failed.  Missing from the full property: all or nothing, see `C141_post_refuted`. -/
theorem C141_post_partial (s : State) (o : Nat → Trains.Reply) (userid : Str) :
    (∀ c, (callP s.next (.postCard userid c)).hit o s = true → (callF s (.postCard userid c) o).2 = .error ∧
      ((callF s (.postCard userid c) o).1 = s ∨ (callF s (.postCard userid c) o).1 = (call s (.postCard [] c)).1 ∨
       (callF s (.postCard userid c) o).1 = (call s (.postCard userid c)).1 ∧ ∃ i, o i = .lost)) ∧
    (∀ a, (callP s.next (.postAddress userid a)).hit o s = true → (callF s (.postAddress userid a) o).2 = .error ∧
      ((callF s (.postAddress userid a) o).1 = s ∨ (callF s (.postAddress userid a) o).1 = (call s (.postAddress [] a)).1 ∨
       (callF s (.postAddress userid a) o).1 = (call s (.postAddress userid a)).1 ∧ ∃ i, o i = .lost)) := by
  refine ⟨fun c h => ?_, fun a h => ?_⟩
  · rw [← put_card, ← show ((callF s (.postCard userid c) works).1 = (call s (.postCard userid c)).1) from
      congrArg Prod.fst (callF_works s (.postCard userid c))]
    exact run_post (put := putCard) (link := linkCard) (fun _ _ _ => rfl) (fun _ _ _ => rfl) h
  · rw [← put_address, ← show ((callF s (.postAddress userid a) works).1 = (call s (.postAddress userid a)).1) from
      congrArg Prod.fst (callF_works s (.postAddress userid a))]
    exact run_post (put := putAddress) (link := linkAddress) (fun _ _ _ => rfl) (fun _ _ _ => rfl) h

/-- C141 refuted: if the second database call of `PostCard` for a user fails, an error is returned and the user does not have the card, but
the card is on file; who tries again has it on file twice. -/
theorem C141_post_refuted (s : State) (userid : Str) (id : Nat) (hu : userid ≠ []) (hid : fromHex userid = some id) (c : Card)
    (o : Nat → Trains.Reply) (h0 : o 0 = .works) (h1 : o 1 = .fails) :
    (callF s (.postCard userid c) o).2 = .error ∧ (callF s (.postCard userid c) o).1.users = s.users ∧
    getCards (callF s (.postCard userid c) o).1 [] = .cards (getAll s.cards ++ [(hex s.next, c)]) ∧
    getCards (call (callF s (.postCard userid c) o).1 (.postCard userid c)).1 [] =
      .cards (getAll s.cards ++ [(hex s.next, c), (hex (s.next + 1), c)]) := by
  have e : callF s (.postCard userid c) o = ((putCard s.next c s).1, .error) := by
    simp [callF, callP, postP, hu, hid, writing, Prog.run, h0, h1, putCard, orErr]
  rw [e]
  simp [putCard, getCards, getAll, call, postCard, hu, hid, Nat.max_eq_right (Nat.le_succ s.next)]

/-! ### Deletions -/

private theorem deleteUser_eq (s : State) (h : Str) (id : Nat) (hid : fromHex h = some id) :
    deleteUser s h = ({ s with
      addresses := removeIds ((s.users.find? fun u => u.id = id).getD DbUser.zero).addresses s.addresses,
      cards := removeIds ((s.users.find? fun u => u.id = id).getD DbUser.zero).cards s.cards,
      users := s.users.filter fun u => u.id ≠ id }, .done) := by
  have e1 : ∀ w : DbUser, (addUserIDs w).addresses.map (·.1) = w.addresses.map hex := by intro; simp [addUserIDs, Function.comp_def]
  have e2 : ∀ w : DbUser, (addUserIDs w).cards.map (·.1) = w.cards.map hex := by intro; simp [addUserIDs, Function.comp_def]
  simp only [deleteUser, hid, e1, e2, hexToObjectIds_hex]

private theorem find_dropped (us : List DbUser) (id : Nat) :
    (us.filter fun u => decide (u.id ≠ id)).find? (fun u => decide (u.id = id)) = none := by
  rw [List.find?_eq_none]
  intro u hu
  simpa using (List.mem_filter.1 hu).2

/-- A call that deletes a user, an address or a card. -/
def Deletes : Op → Prop
  | .deleteUser _ => True
  | .deleteAddress _ => True
  | .deleteCard _ => True
  | _ => False

private theorem delete_again {pull : Nat → State → State × Ret Unit} {drop : List Nat → State → State × Ret Unit}
    (hp : ∀ i s, (pull i s).2 = .ok ()) (hd : ∀ i s, (drop i s).2 = .ok ()) (h : Str) (o : Nat → Trains.Reply) (s : State) :
    ((deleteP pull drop h).run o s).1 = s ∨ ∃ id, fromHex h = some id ∧ (((deleteP pull drop h).run o s).1 = (pull id s).1 ∨
      ((deleteP pull drop h).run o s).1 = (drop [id] (pull id s).1).1) := by
  unfold deleteP
  cases fromHex h with
  | none => exact .inl rfl
  | some id =>
    simp only [Prog.run, orErr, writing]
    cases o 0 with
    | fails => exact .inl rfl
    | lost => exact .inr ⟨id, rfl, .inl rfl⟩
    | works =>
      simp only [hp, Prog.run]
      cases o (0 + 1) with
      | works => simp only [hd]; exact .inr ⟨id, rfl, .inr rfl⟩
      | fails => exact .inr ⟨id, rfl, .inl rfl⟩
      | lost => exact .inr ⟨id, rfl, .inr rfl⟩

private theorem once_more (op : Op) (hop : Deletes op) (s : State) (o : Nat → Trains.Reply) :
    call (callF s op o).1 op = call s op := by
  cases op with
  | deleteUser h =>
    simp only [call, callF, callP, deleteUserP]
    cases hid : fromHex h with
    | none => rfl
    | some id =>
      have e1 : ∀ w : DbUser, (addUserIDs w).addresses.map (·.1) = w.addresses.map hex := by intro; simp [addUserIDs, Function.comp_def]
      have e2 : ∀ w : DbUser, (addUserIDs w).cards.map (·.1) = w.cards.map hex := by intro; simp [addUserIDs, Function.comp_def]
      simp only [deleteUser_eq _ h id hid, reading, Prog.run, orErr, e1, e2, hexToObjectIds_hex, writing]
      cases o 0 with
      | fails => rfl
      | lost => rfl
      | works =>
        simp only [orErr, e1, e2, hexToObjectIds_hex, Prog.run, dropAddresses, dropCards, dropUser]
        cases o (0 + 1) with
        | fails => rfl
        | lost => simp only [orErr, Prog.run, removeIds_idem]
        | works =>
          simp only [orErr, Prog.run]
          cases o (0 + 1 + 1) with
          | fails => simp only [orErr, Prog.run, removeIds_idem]
          | lost => simp only [orErr, Prog.run, removeIds_idem]
          | works =>
            simp only [orErr, Prog.run]
            cases o (0 + 1 + 1 + 1) <;>
              simp only [orErr, Prog.run, removeIds_idem, find_dropped, Option.getD_none, DbUser.zero, removeIds_nil, List.filter_filter,
                Bool.and_self]
  | deleteAddress h =>
    simp only [call, callF, callP]
    rcases delete_again (pull := pullAddress) (drop := dropAddresses) (fun _ _ => rfl) (fun _ _ => rfl) h o s with e | ⟨id, hid, e | e⟩
    · rw [e]
    · rw [e]
      simp only [deleteAddress, hid, pullAddress, List.map_map]
      congr 3
      funext u
      simp only [Function.comp]
      by_cases hc : id ∈ u.addresses
      · simp [hc]
      · simp [hc]
    · rw [e]
      simp only [deleteAddress, hid, pullAddress, dropAddresses, List.map_map, removeIds_idem]
      congr 3
      funext u
      simp only [Function.comp]
      by_cases hc : id ∈ u.addresses
      · simp [hc]
      · simp [hc]
  | deleteCard h =>
    simp only [call, callF, callP]
    rcases delete_again (pull := pullCard) (drop := dropCards) (fun _ _ => rfl) (fun _ _ => rfl) h o s with e | ⟨id, hid, e | e⟩
    · rw [e]
    · rw [e]
      simp only [deleteCard, hid, pullCard, List.map_map]
      congr 3
      funext u
      simp only [Function.comp]
      by_cases hc : id ∈ u.cards
      · simp [hc]
      · simp [hc]
    · rw [e]
      simp only [deleteCard, hid, pullCard, dropCards, List.map_map, removeIds_idem]
      congr 3
      funext u
      simp only [Function.comp]
      by_cases hc : id ∈ u.cards
      · simp [hc]
      · simp [hc]
  | _ => cases hop

/-- C141: a deletion can be repeated until it works: whichever database calls failed in the attempts before, the call that works returns, and
leaves the database, as if it had been the only one. -/
theorem C141_delete_again (op : Op) (hop : Deletes op) (s : State) (attempts : List (Nat → Trains.Reply)) :
    callF (attempts.foldl (fun s o => (callF s op o).1) s) op works = called s op := by
  rw [callF_works]
  have : call (attempts.foldl (fun s o => (callF s op o).1) s) op = call s op := by
    induction attempts generalizing s with
    | nil => rfl
    | cons o os ih => rw [List.foldl_cons, ih, once_more op hop]
  simp only [called, this]

/-- C141: a deletion in which a database call fails returns an error. -/
theorem C141_delete_error (op : Op) (hop : Deletes op) (s : State) (o : Nat → Trains.Reply) (h : (callP s.next op).hit o s = true) :
    (callF s op o).2 = .error := by
  have two : ∀ {pull : Nat → State → State × Ret Unit} {drop : List Nat → State → State × Ret Unit}
      (hp : ∀ i s, (pull i s).2 = .ok ()) (hd : ∀ i s, (drop i s).2 = .ok ()) (x : Str), (deleteP pull drop x).hit o s = true →
      ((deleteP pull drop x).run o s).2 = .error := by
    intro pull drop hp hd x h
    unfold deleteP at h ⊢
    cases hx : fromHex x with
    | none => rfl
    | some id =>
      rw [hx] at h
      simp only [Prog.run, Prog.hit, orErr, writing] at h ⊢
      cases ho : o 0 with
      | fails => rfl
      | lost => rfl
      | works =>
        simp only [ho, hp, Prog.run, Prog.hit] at h ⊢
        cases ho1 : o (0 + 1) with
        | works => simp only [ho1, hd, Prog.hit] at h; cases h
        | fails => rfl
        | lost => rfl
  cases op with
  | deleteUser x =>
    simp only [callF, callP, deleteUserP] at h ⊢
    cases hid : fromHex x with
    | none => rfl
    | some id =>
      have e1 : ∀ w : DbUser, (addUserIDs w).addresses.map (·.1) = w.addresses.map hex := by intro; simp [addUserIDs, Function.comp_def]
      have e2 : ∀ w : DbUser, (addUserIDs w).cards.map (·.1) = w.cards.map hex := by intro; simp [addUserIDs, Function.comp_def]
      rw [hid] at h
      simp only [reading, Prog.run, Prog.hit, orErr, e1, e2, hexToObjectIds_hex, writing, dropAddresses, dropCards, dropUser] at h ⊢
      cases ho : o 0 with
      | fails => rfl
      | lost => rfl
      | works =>
        simp only [ho, Prog.run, Prog.hit, orErr, e1, e2, hexToObjectIds_hex] at h ⊢
        cases ho1 : o (0 + 1) with
        | fails => rfl
        | lost => rfl
        | works =>
          simp only [ho1, Prog.run, Prog.hit, orErr] at h ⊢
          cases ho2 : o (0 + 1 + 1) with
          | fails => rfl
          | lost => rfl
          | works =>
            simp only [ho2, Prog.run, Prog.hit, orErr] at h ⊢
            cases ho3 : o (0 + 1 + 1 + 1) with
            | fails => rfl
            | lost => rfl
            | works => simp only [ho3, Prog.hit] at h; cases h
  | deleteAddress x => exact two (pull := pullAddress) (drop := dropAddresses) (fun _ _ => rfl) (fun _ _ => rfl) x h
  | deleteCard x => exact two (pull := pullCard) (drop := dropCards) (fun _ _ => rfl) (fun _ _ => rfl) x h
  | _ => cases hop

/-! ### Who can log in -/

/-- All calls of the method change the database in this way. -/
private inductive Each (R : State → State → Prop) : Prog State Reply → Prop where
  | ret (r : Ret Reply) : Each R (.ret r)
  | call {β : Type} (f : State → State × Ret β) (k : Ret β → Prog State Reply) (hf : ∀ s, R s (f s).1) (hk : ∀ r, Each R (k r)) :
      Each R (.call f k)

private theorem Each.run {R : State → State → Prop} (hr : ∀ s, R s s) (ht : ∀ a b c, R a b → R b c → R a c) {p : Prog State Reply}
    (h : Each R p) (o : Nat → Trains.Reply) (s : State) : R s (p.run o s).1 := by
  induction h generalizing o s with
  | ret r => exact hr s
  | call f k hf hk ih =>
    simp only [Prog.run]
    cases o 0 with
    | works => exact ht _ _ _ (hf s) (ih _ _ _)
    | fails => exact ih _ _ _
    | lost => exact ht _ _ _ (hf s) (ih _ _ _)

/-- Every user was there before, with the same name and password, or is the new one. -/
private def Grown (new : DbUser → Prop) (s s' : State) : Prop :=
  ∀ u' ∈ s'.users, (∃ u ∈ s.users, u.id = u'.id ∧ u.person = u'.person ∧ u.password = u'.password ∧ u.salt = u'.salt) ∨ new u'

private theorem grown_same {new : DbUser → Prop} {s s' : State} (h : s'.users = s.users) : Grown new s s' := by
  intro u hu
  rw [h] at hu
  exact .inl ⟨u, hu, rfl, rfl, rfl, rfl⟩

private theorem grown_map {new : DbUser → Prop} {s s' : State} (f : DbUser → DbUser)
    (hf : ∀ u, u.id = (f u).id ∧ u.person = (f u).person ∧ u.password = (f u).password ∧ u.salt = (f u).salt)
    (h : ∀ u' ∈ s'.users, ∃ u ∈ s.users, u' = u ∨ u' = f u) : Grown new s s' := by
  intro u' hu
  obtain ⟨u, hu', rfl | rfl⟩ := h u' hu
  · exact .inl ⟨_, hu', rfl, rfl, rfl, rfl⟩
  · exact .inl ⟨u, hu', hf u⟩

private theorem mem_updateUser {id : Nat} {f : DbUser → DbUser} {us : List DbUser} :
    ∀ u' ∈ updateUser id f us, ∃ u ∈ us, u' = u ∨ u' = f u := by
  induction us with
  | nil => intro u' h; cases h
  | cons u us ih =>
    intro u' h
    simp only [updateUser] at h
    split at h
    · rcases List.mem_cons.1 h with rfl | h
      · exact ⟨u, .head _, .inr rfl⟩
      · exact ⟨u', .tail _ h, .inl rfl⟩
    · rcases List.mem_cons.1 h with rfl | h
      · exact ⟨u', .head _, .inl rfl⟩
      · obtain ⟨w, hw, e⟩ := ih u' h
        exact ⟨w, .tail _ hw, e⟩

private theorem each_orErr {R : State → State → Prop} {β : Type} {k : β → Prog State Reply} (h : ∀ b, Each R (k b)) (r : Ret β) :
    Each R (orErr k r) := by
  cases r with
  | ok b => exact h b
  | error => exact .ret _
  | panic => exact .ret _

private theorem each_reading {new : DbUser → Prop} {β : Type} (f : State → Ret β) {k : β → Prog State Reply} (h : ∀ b, Each (Grown new) (k b)) :
    Each (Grown new) (reading f k) := .call _ _ (fun _ => grown_same rfl) (each_orErr h)

private theorem each_fetch {new : DbUser → Prop} {α : Type} (coll : State → List (Nat × α)) (hs : List Str)
    {k : Ret (List (Str × α)) → Prog State Reply} (h : ∀ r, Each (Grown new) (k r)) : Each (Grown new) (fetchP coll hs k) := by
  unfold fetchP
  split
  · exact h _
  · split
    · exact h _
    · exact .call _ _ (fun _ => grown_same rfl) h

private theorem each_writing {R : State → State → Prop} {f : State → State × Ret Unit} (h : ∀ s, R s (f s).1) (a : Reply) :
    Each R (writing f a) := .call _ _ h (each_orErr fun _ => .ret _)

private theorem each_many {R : State → State → Prop} {α : Type} {put : Nat → α → State → State × Ret Unit} (h : ∀ i a s, R s (put i a s).1)
    {k : Prog State Reply} (hk : Each R k) : ∀ (as : List α) (i : Nat), Each R (createManyP put i as k)
  | [], _ => hk
  | _ :: as, i => .call _ _ (h i _) (each_orErr fun _ => each_many h hk as (i + 1))

/-- The account that a call makes. -/
private def Made (op : Op) (u : DbUser) : Prop :=
  ∃ pw, u.password = hash pw u.salt ∧ (op = .register u.person pw u.salt ∨ ∃ as cs, op = .postUser u.person pw u.salt as cs)

private theorem each_create (op : Op) (n : Nat) (p : Person) (pw salt : Str) (as : List Address) (cs : List Card)
    (h : ∀ l m, Made op ⟨n, p, hash pw salt, salt, l, m⟩) : Each (Grown (Made op)) (createUserP n p (hash pw salt) salt as cs) := by
  refine each_many (by intros; exact grown_same rfl) (each_many (by intros; exact grown_same rfl) (.call _ _ ?_ ?_) _ _) _ _
  · intro s u hu
    rcases List.mem_append.1 hu with hu | hu
    · exact .inl ⟨u, hu, rfl, rfl, rfl, rfl⟩
    · rw [List.mem_singleton] at hu
      subst hu
      exact .inr (h _ _)
  · intro r
    cases r with
    | ok _ => exact .ret _
    | error => exact .call _ _ (fun _ => grown_same rfl) fun _ => .call _ _ (fun _ => grown_same rfl) fun _ => .ret _
    | panic => exact .ret _

private theorem each_call (n : Nat) (op : Op) : Each (Grown (Made op)) (callP n op) := by
  cases op with
  | login u p =>
    refine each_reading _ fun w => ?_
    split
    · exact .ret _
    · refine each_fetch _ _ fun r => ?_
      cases r with
      | ok as =>
        refine each_fetch _ _ fun r => ?_
        cases r with
        | ok cs => exact .ret _
        | error => exact .ret _
        | panic => exact .ret _
      | error => exact .ret _
      | panic => exact .ret _
  | register p pw salt => exact each_create _ n p pw salt [] [] fun _ _ => ⟨pw, rfl, .inl rfl⟩
  | postUser p pw salt as cs => exact each_create _ n p pw salt as cs fun _ _ => ⟨pw, rfl, .inr ⟨as, cs, rfl⟩⟩
  | getUsers id =>
    simp only [callP, getUsersP]
    split
    · exact each_reading _ fun _ => .ret _
    · split
      · exact .ret _
      · exact each_reading _ fun _ => .ret _
  | getAddresses id =>
    simp only [callP, lookP]
    split
    · exact each_reading _ fun _ => .ret _
    · split
      · exact .ret _
      · exact each_reading _ fun _ => .ret _
  | getCards id =>
    simp only [callP, lookP]
    split
    · exact each_reading _ fun _ => .ret _
    · split
      · exact .ret _
      · exact each_reading _ fun _ => .ret _
  | postAddress u a =>
    simp only [callP, postP]
    split
    · exact each_writing (by intro; exact grown_same rfl) _
    · split
      · exact .ret _
      · exact .call _ _ (fun _ => grown_same rfl) (each_orErr fun _ => each_writing
          (fun s => grown_map (fun v => { v with addresses := addToSet n v.addresses }) (fun _ => ⟨rfl, rfl, rfl, rfl⟩)
            fun u' (hu : u' ∈ updateUser _ _ s.users) => mem_updateUser u' hu) _)
  | postCard u a =>
    simp only [callP, postP]
    split
    · exact each_writing (by intro; exact grown_same rfl) _
    · split
      · exact .ret _
      · exact .call _ _ (fun _ => grown_same rfl) (each_orErr fun _ => each_writing
          (fun s => grown_map (fun v => { v with cards := addToSet n v.cards }) (fun _ => ⟨rfl, rfl, rfl, rfl⟩)
            fun u' (hu : u' ∈ updateUser _ _ s.users) => mem_updateUser u' hu) _)
  | deleteUser h =>
    simp only [callP, deleteUserP]
    split
    · exact .ret _
    · refine each_reading _ fun w => ?_
      split
      · exact .ret _
      · refine .call _ _ (fun _ => grown_same rfl) (each_orErr fun _ => ?_)
        split
        · exact .ret _
        · refine .call _ _ (fun _ => grown_same rfl) (each_orErr fun _ => each_writing (fun s u hu => ?_) _)
          exact .inl ⟨u, (List.mem_filter.1 hu).1, rfl, rfl, rfl, rfl⟩
  | deleteAddress h =>
    simp only [callP, deleteP]
    split
    · exact .ret _
    · next id _ =>
      refine .call _ _ (fun s => ?_) (each_orErr fun _ => each_writing (by intro; exact grown_same rfl) _)
      refine grown_map (fun u => { u with addresses := u.addresses.filter (· ≠ id) }) (fun _ => ⟨rfl, rfl, rfl, rfl⟩) fun u' hu => ?_
      obtain ⟨u, hu', rfl⟩ := List.mem_map.1 hu
      refine ⟨u, hu', ?_⟩
      split
      · exact .inr rfl
      · exact .inl rfl
  | deleteCard h =>
    simp only [callP, deleteP]
    split
    · exact .ret _
    · next id _ =>
      refine .call _ _ (fun s => ?_) (each_orErr fun _ => each_writing (by intro; exact grown_same rfl) _)
      refine grown_map (fun u => { u with cards := u.cards.filter (· ≠ id) }) (fun _ => ⟨rfl, rfl, rfl, rfl⟩) fun u' hu => ?_
      obtain ⟨u, hu', rfl⟩ := List.mem_map.1 hu
      refine ⟨u, hu', ?_⟩
      split
      · exact .inr rfl
      · exact .inl rfl
  | deleteOther => exact .ret _

private theorem grown_call (s : State) (op : Op) (o : Nat → Trains.Reply) : Grown (Made op) s (callF s op o).1 := by
  refine (each_call s.next op).run (fun _ => grown_same rfl) (fun a b c h1 h2 u hu => ?_) o s
  rcases h2 u hu with ⟨w, hw, e1, e2, e3, e4⟩ | h
  · rcases h1 w hw with ⟨x, hx, f1, f2, f3, f4⟩ | ⟨pw, g1, g2⟩
    · exact .inl ⟨x, hx, f1.trans e1, f2.trans e2, f3.trans e3, f4.trans e4⟩
    · right
      rw [e2, e4] at g2
      rw [e3, e4] at g1
      exact ⟨pw, g1, g2⟩
  · exact .inr h

private theorem all_made (history : List (Op × (Nat → Trains.Reply))) : ∀ (s : State) (ops : List Op),
    (∀ u ∈ s.users, ∃ op ∈ ops, Made op u) →
    ∀ u ∈ (withFailures stepF s history).1.users, ∃ op ∈ ops ++ history.map Prod.fst, Made op u := by
  induction history with
  | nil => intro s ops h u hu; simpa using h u hu
  | cons c rest ih =>
    obtain ⟨op, o⟩ := c
    intro s ops h u hu
    have := ih (callF s op o).1 (ops ++ [op]) ?_ u hu
    · simpa using this
    · intro u hu
      rcases grown_call s op o u hu with ⟨w, hw, -, e2, e3, e4⟩ | hm
      · obtain ⟨op', ho, pw, g1, g2⟩ := h w hw
        refine ⟨op', List.mem_append_left _ ho, pw, ?_, ?_⟩
        · rw [← e3, ← e4]; exact g1
        · rw [← e2, ← e4]; exact g2
      · exact ⟨op, by simp, hm⟩

/-- C141: whatever database calls fail in a history and in the login, a login gives access only to an account that was registered or posted
with that username and a password with the same salted hash. -/
theorem C141_login_sound (history : List (Op × (Nat → Trains.Reply))) (username password : Str) (o : Nat → Trains.Reply) (v : User)
    (h : (callF (withFailures stepF State.init history).1 (.login username password) o).2 = .ok (.user v)) :
    v.person.username = username ∧ ∃ pw salt, hash password salt = hash pw salt ∧
      (.register v.person pw salt ∈ history.map Prod.fst ∨ ∃ as cs, .postUser v.person pw salt as cs ∈ history.map Prod.fst) := by
  have hm := all_made history State.init [] (by simp [State.init])
  generalize (withFailures stepF State.init history).1 = s at *
  simp only [callF, callP] at h
  rcases login_cases s username password o with ⟨e, -⟩ | ⟨-, h1, h2, -⟩
  · rw [e] at h; cases h
  · rw [h2] at h
    obtain ⟨-, -, g⟩ := rest_run (named s username) (fun i => o (i + 1)) s
    obtain ⟨g1, -⟩ := g v h
    simp only [named] at h1 g1
    cases hf : s.users.find? fun w => decide (w.person.username = username) with
    | none => rw [hf] at h1; exact absurd h1 (zero_password password)
    | some w =>
      rw [hf] at h1 g1
      simp only [Option.getD_some] at h1 g1
      obtain ⟨op, hop, pw, k1, k2⟩ := hm w (List.mem_of_find?_eq_some hf)
      rw [List.nil_append] at hop
      refine ⟨by rw [g1]; simpa using List.find?_some hf, pw, w.salt, by rw [← h1, k1], ?_⟩
      rw [g1]
      rcases k2 with rfl | ⟨as, cs, rfl⟩
      · exact .inl hop
      · exact .inr ⟨as, cs, hop⟩

/-! ### Making an account with addresses and cards -/

/-- The replies to `n` calls that work, and then as `o` says. -/
def afterWorking (n : Nat) (o : Nat → Trains.Reply) : Nat → Trains.Reply := fun i => if i < n then .works else o (i - n)

private theorem many_after {α : Type} (put : Nat → α → State → State × Ret Unit) (h : ∀ i a s, (put i a s).2 = .ok ()) (k : Prog State Reply)
    (o : Nat → Trains.Reply) : ∀ (as : List α) (i : Nat) (s : State) (m : Nat), (createManyP put i as k).run (afterWorking (as.length + m) o) s =
      k.run (afterWorking m o) (as.zipIdx.foldl (fun s a => (put (i + a.2) a.1 s).1) s) := by
  intro as
  induction as with
  | nil => intro i s m; simp [createManyP]
  | cons a as ih =>
    intro i s m
    have e : (fun j => afterWorking ((a :: as).length + m) o (j + 1)) = afterWorking (as.length + m) o := by
      funext j
      simp only [afterWorking, List.length_cons]
      by_cases hj : j < as.length + m
      · rw [if_pos hj, if_pos (by omega)]
      · rw [if_neg hj, if_neg (by omega)]; congr 1; omega
    have e0 : afterWorking ((a :: as).length + m) o 0 = .works := by simp [afterWorking]
    simp only [createManyP, Prog.run, e0, h, orErr, List.zipIdx_cons, List.foldl_cons, Nat.add_zero, e]
    rw [ih, List.zipIdx_succ, List.foldl_map]
    simp only [Nat.add_assoc, Nat.add_comm 1]

private theorem after_zero (o : Nat → Trains.Reply) : afterWorking 0 o = o := by funext i; simp [afterWorking]

private theorem created {α : Type} : ∀ (as : List α) (coll : List (Nat × α)) (i : Nat),
    (createMany coll i as).1 = coll ++ (List.range' i as.length).zip as := by
  intro as
  induction as with
  | nil => intros; simp [createMany]
  | cons a as ih => intro coll i; simp [createMany, ih, List.range'_succ]

private theorem remove_created {α : Type} (as : List α) (coll : List (Nat × α)) (i : Nat) (h : ∀ e ∈ coll, e.1 < i) :
    removeIds (List.range' i as.length) (coll ++ (List.range' i as.length).zip as) = coll := by
  simp only [removeIds, List.filter_append]
  rw [List.filter_eq_self.2, List.filter_eq_nil_iff.2, List.append_nil]
  · rintro ⟨j, a⟩ he
    have := (List.of_mem_zip he).1
    simpa using this
  · intro e he
    have := h e he
    simp [List.mem_range'_1]
    omega

private theorem rep_lt {b : Book} {s : State} (h : Rep b s) : (∀ e ∈ s.cards, e.1 < s.next) ∧ ∀ e ∈ s.addresses, e.1 < s.next := by
  constructor
  · intro e he
    rw [h.cards] at he
    obtain ⟨x, hx, rfl⟩ := List.mem_map.1 he
    rw [h.next]
    exact h.cardOk.lt x hx
  · intro e he
    rw [h.addresses] at he
    obtain ⟨x, hx, rfl⟩ := List.mem_map.1 he
    rw [h.next]
    exact h.addrOk.lt x hx

/-- The database before the account is written. -/
private theorem before_user (s : State) (p : Person) (pw salt : Str) (as : List Address) (cs : List Card) (o : Nat → Trains.Reply) :
    ∃ m, callF s (.postUser p pw salt as cs) (afterWorking (cs.length + as.length) o) =
      (Prog.call (putUser ⟨s.next, p, hash pw salt, salt, List.range' (s.next + 1 + cs.length) as.length, List.range' (s.next + 1) cs.length⟩) fun
        | .ok () => .ret (.ok (.id (hex s.next)))
        | .error => cleanupP (List.range' (s.next + 1 + cs.length) as.length) (List.range' (s.next + 1) cs.length)
        | .panic => .ret .panic).run o
      ⟨s.users, s.addresses ++ (List.range' (s.next + 1 + cs.length) as.length).zip as,
        s.cards ++ (List.range' (s.next + 1) cs.length).zip cs, m⟩ := by
  simp only [callF, callP, createUserP]
  rw [many_after putCard (fun _ _ _ => rfl), ← Nat.add_zero as.length, many_after putAddress (fun _ _ _ => rfl), after_zero]
  rw [(cards_put cs (s.next + 1) s (by omega)).1]
  rw [(addresses_put as (s.next + 1 + cs.length) { s with cards := (createMany s.cards (s.next + 1) cs).1, next := if cs = [] then s.next else s.next + 1 + cs.length } (by simp only; split <;> omega)).1]
  simp only [created, Nat.add_zero]
  exact ⟨_, rfl⟩

/-- C141: if the account cannot be written when a user with addresses and cards is posted, an error is returned, and the addresses and cards,
which have been written, are removed again if the database calls for that work. -/
theorem C141_cleanup (os : List Op) (p : Person) (pw salt : Str) (as : List Address) (cs : List Card) (o : Nat → Trains.Reply)
    (h0 : o 0 = .fails) (h1 : o 1 = .works) (h2 : o 2 = .works) :
    let s := (calls State.init os).1
    let r := callF s (.postUser p pw salt as cs) (afterWorking (cs.length + as.length) o)
    r.2 = .error ∧ r.1.users = s.users ∧ r.1.addresses = s.addresses ∧ r.1.cards = s.cards := by
  obtain ⟨k1, k2⟩ := rep_lt (calls_rep os rep_init)
  generalize (calls State.init os).1 = s at *
  intro s' r
  obtain ⟨m, e⟩ := before_user s p pw salt as cs o
  simp only [r, s', e, Prog.run, h0, h1, h2, cleanupP, dropAddresses, dropCards]
  refine ⟨trivial, trivial, ?_, ?_⟩
  · exact remove_created _ _ _ fun e he => by have := k2 e he; omega
  · exact remove_created _ _ _ fun e he => by have := k1 e he; omega

/-- C141 refuted: `PostUser` returns an error, but the account has been made, without its addresses and cards.  This happens if the database
writes the account and the reply is lost: the clean-up then removes the addresses and cards of an account that exists. -/
theorem C141_user_refuted (os : List Op) (p : Person) (pw salt : Str) (as : List Address) (cs : List Card) (o : Nat → Trains.Reply)
    (hn : ∀ a ∈ (Book.empty.history os).accounts, a.person.username ≠ p.username)
    (h0 : o 0 = .lost) (h1 : o 1 = .works) (h2 : o 2 = .works) :
    let s := (calls State.init os).1
    let r := callF s (.postUser p pw salt as cs) (afterWorking (cs.length + as.length) o)
    r.2 = .error ∧ login r.1 p.username pw = .user ⟨hex s.next, p, [], []⟩ := by
  have hr := calls_rep os rep_init
  obtain ⟨k1, k2⟩ := rep_lt hr
  generalize (calls State.init os).1 = s at *
  generalize Book.empty.history os = b at *
  intro s' r
  obtain ⟨m, e⟩ := before_user s p pw salt as cs o
  have er : r = (⟨s.users ++ [⟨s.next, p, hash pw salt, salt, List.range' (s.next + 1 + cs.length) as.length, List.range' (s.next + 1) cs.length⟩],
      s.addresses, s.cards, max m (s.next + 1)⟩, .error) := by
    simp only [r, s', e, Prog.run, h0, h1, h2, cleanupP, dropAddresses, dropCards, putUser]
    rw [remove_created _ _ _ fun e he => by have := k2 e he; omega, remove_created _ _ _ fun e he => by have := k1 e he; omega]
  rw [er]
  refine ⟨rfl, ?_⟩
  have hf : s.users.find? (fun u => decide (u.person.username = p.username)) = none := by
    rw [hr.users, List.find?_eq_none]
    intro u hu
    obtain ⟨a, ha, rfl⟩ := List.mem_map.1 hu
    have := hn a ha
    simp [row, this]
  have none_left : ∀ {α : Type} (coll : List (Nat × α)) (i n : Nat), (∀ e ∈ coll, e.1 < i) →
      getByIds coll ((List.range' i n).map hex) = some [] := by
    intro α coll i n h
    cases n with
    | zero => rfl
    | succ n =>
      have e := hexToObjectIds_hex (List.range' i (n + 1))
      rw [List.range'_succ, List.map_cons] at e ⊢
      simp only [getByIds, e]
      rw [← List.range'_succ, List.filter_eq_nil_iff.2]
      · rfl
      · intro x hx
        have := h x hx
        simp [List.mem_range'_1]
        omega
  have ea : ∀ w : DbUser, (addUserIDs w).addresses.map (·.1) = w.addresses.map hex := by intro; simp [addUserIDs, Function.comp_def]
  have ec : ∀ w : DbUser, (addUserIDs w).cards.map (·.1) = w.cards.map hex := by intro; simp [addUserIDs, Function.comp_def]
  simp only [login, List.find?_append, hf, Option.none_or, List.find?_cons, decide_true, Option.getD_some, ne_eq, not_true, if_false, ea, ec]
  rw [none_left _ _ _ fun e he => by have := k2 e he; omega, none_left _ _ _ fun e he => by have := k1 e he; omega]
  rfl

/-- C141 refuted: if a card has been written and an address cannot be, `PostUser` returns an error, and the card stays on file. -/
theorem C141_leftover_refuted (s : State) (p : Person) (pw salt : Str) (a : Address) (as : List Address) (c : Card) (o : Nat → Trains.Reply)
    (h0 : o 0 = .works) (h1 : o 1 = .fails) :
    let r := callF s (.postUser p pw salt (a :: as) [c]) o
    r.2 = .error ∧ r.1.users = s.users ∧ getCards r.1 [] = .cards (getAll s.cards ++ [(hex (s.next + 1), c)]) := by
  intro r
  simp [r, callF, callP, createUserP, createManyP, Prog.run, h0, h1, putCard, orErr, getCards, getAll]

end Verif.Users
