/-
C94: accounts of the social network example: UserService.go, UserIdService.go and UserMentionService.go in
examples/dsb_sn/workflow/socialnetwork.  The three services share a database and a cache.
-/
namespace Verif.Social.Accounts

/-! ### Model

Simplifications: databases and caches return no errors by themselves; a cached value may disappear; calls run one after the other; first
and last names are left out; a token is the pair of the user name and the identifier that it is made from. -/

abbrev Name := List Char

/-- `User` (DataModels.go lines 4-11). -/
structure User where
  id : Int
  name : Name
  hash : List Char
  salt : List Char
  deriving DecidableEq, Repr

/-- `LoginObj` (UserService.go lines 47-51). -/
structure Login where
  id : Int
  password : List Char
  salt : List Char
  deriving DecidableEq, Repr

/-- The database `user`, the keys `<name>:UserID` and `<name>:Login` of the cache (different keys: they end differently), and the
users that were inserted in the social graph. -/
structure State where
  db : List User
  ids : Name → Option Int
  logins : Name → Option Login
  graph : List Int

/-- Nothing is stored yet. -/
def State.init : State := ⟨[], fun _ => none, fun _ => none, []⟩

/-- `FindOne` by user name. -/
def State.find (s : State) (name : Name) : Option User := s.db.find? (·.name = name)

section
variable (sha : List Char → List Char)

/-- What the database says about a login (UserService.go lines 100-113): a user that is not found has an empty hash and salt and the
identifier 0. -/
def State.dbLogin (s : State) (name : Name) : Login :=
  match s.find name with
  | some u => ⟨u.id, u.hash, u.salt⟩
  | none => ⟨0, [], []⟩

/-- Lines 95-114: the identifier -1 counts as missing. -/
def State.loginObj (s : State) (name : Name) : Login :=
  match s.logins name with
  | some l => if l.id = -1 then s.dbLogin name else l
  | none => s.dbLogin name

/-- `Login` (lines 93-139).  `sha` is `hashPwd` (lines 86-90).  The result is what the token says. -/
def State.login (s : State) (name : Name) (password : List Char) : State × Option (Name × Int) :=
  if sha (password ++ (s.loginObj name).salt) ≠ (s.loginObj name).password then (s, none)
  else ({ s with logins := fun n => if n = name then some (s.loginObj name) else s.logins n }, some (name, (s.loginObj name).id))

/-- `RegisterUserWithId` (lines 179-205) with the salt that was drawn. -/
def State.register (s : State) (name : Name) (password : List Char) (id : Int) (salt : List Char) : State × Bool :=
  match s.find name with
  | some _ => (s, false)
  | none => ({ s with db := s.db ++ [⟨id, name, sha (password ++ salt), salt⟩], graph := s.graph ++ [id] }, true)

/-- `GetUserId` (UserIdService.go lines 30-62). -/
def State.userId (s : State) (name : Name) : State × Option Int :=
  match s.ids name with
  | some id => (s, some id)
  | none =>
    match s.find name with
    | none => (s, none)
    | some u => ({ s with ids := fun n => if n = name then some u.id else s.ids n }, some u.id)

/-- `ComposeCreatorWithUsername` (UserService.go lines 147-176): the identifier -1 counts as missing. -/
def State.creator (s : State) (name : Name) : State × Option (Int × Name) :=
  if (s.ids name).getD (-1) = -1 then
    match s.find name with
    | none => (s, none)
    | some u => ({ s with ids := fun n => if n = name then some u.id else s.ids n }, some (u.id, name))
  else (s, some ((s.ids name).getD (-1), name))

/-- The mentions that the cache has (UserMentionService.go lines 46-52): the identifier 0 counts as missing. -/
def State.cachedMentions (s : State) (names : List Name) : List (Int × Name) :=
  names.filterMap fun n => match s.ids n with
    | some id => if id ≠ 0 then some (id, n) else none
    | none => none

/-- `ComposeUserMentions` (lines 30-82): what the cache has, and the users of the database with one of the other names. -/
def State.mentions (s : State) (names : List Name) : List (Int × Name) :=
  s.cachedMentions names ++
    (s.db.filter fun u => names.contains u.name && !((s.cachedMentions names).any fun m => m.2 = u.name)).map fun u => (u.id, u.name)

/-- The calls; `loseId` and `loseLogin` stand for a cache that forgets a value. -/
inductive Op where
  | register (name : Name) (password : List Char) (id : Int) (salt : List Char)
  | login (name : Name) (password : List Char)
  | userId (name : Name)
  | creator (name : Name)
  | mentions (names : List Name)
  | loseId (name : Name)
  | loseLogin (name : Name)
  deriving DecidableEq, Repr

/-- What a call returns. -/
inductive Reply where
  | ok
  | error
  | token (name : Name) (id : Int)
  | id (id : Int)
  | users (l : List (Int × Name))
  deriving DecidableEq, Repr

/-- One call. -/
def State.step (s : State) : Op → State × Reply
  | .register name password id salt =>
    ((s.register sha name password id salt).1, if (s.register sha name password id salt).2 then .ok else .error)
  | .login name password =>
    ((s.login sha name password).1, match (s.login sha name password).2 with | some t => .token t.1 t.2 | none => .error)
  | .userId name => ((s.userId name).1, match (s.userId name).2 with | some i => .id i | none => .error)
  | .creator name => ((s.creator name).1, match (s.creator name).2 with | some c => .users [c] | none => .error)
  | .mentions names => (s, .users (s.mentions names))
  | .loseId name => ({ s with ids := fun n => if n = name then none else s.ids n }, .ok)
  | .loseLogin name => ({ s with logins := fun n => if n = name then none else s.logins n }, .ok)

/-- The state after a history, the latest call first. -/
def after : List Op → State
  | [] => .init
  | o :: h => ((after h).step sha o).1

/-- What a call returns after a history. -/
def reply (h : List Op) (o : Op) : Reply := ((after sha h).step sha o).2
end

/-! ### Specification -/

/-- Who has an account: identifier, name, password and salt of the first registration of every name. -/
def accounts : List Op → List (Int × Name × List Char × List Char)
  | [] => []
  | .register name password id salt :: h =>
    if (accounts h).any (·.2.1 = name) then accounts h else accounts h ++ [(id, name, password, salt)]
  | _ :: h => accounts h

/-! ### Proofs -/
section
variable (sha : List Char → List Char)

/-- The document of an account. -/
def doc (a : Int × Name × List Char × List Char) : User := ⟨a.1, a.2.1, sha (a.2.2.1 ++ a.2.2.2), a.2.2.2⟩

/-- What holds after every history. -/
structure Ok (accs : List (Int × Name × List Char × List Char)) (s : State) : Prop where
  db : s.db = accs.map (doc sha)
  ids : ∀ n i, s.ids n = some i → ∃ a ∈ accs, a.2.1 = n ∧ a.1 = i
  logins : ∀ n l, s.logins n = some l → ∃ a ∈ accs, a.2.1 = n ∧ l = ⟨a.1, sha (a.2.2.1 ++ a.2.2.2), a.2.2.2⟩
  unique : (accs.map (·.2.1)).Nodup

variable {sha}

theorem unique_name {l : List (Int × Name × List Char × List Char)} (hn : (l.map (·.2.1)).Nodup) {a b : Int × Name × List Char × List Char}
    (ha : a ∈ l) (hb : b ∈ l) (e : a.2.1 = b.2.1) : a = b := by
  induction l with
  | nil => cases ha
  | cons x l ih =>
    rw [List.map_cons, List.nodup_cons] at hn
    rcases List.mem_cons.1 ha with ha' | ha' <;> rcases List.mem_cons.1 hb with hb' | hb'
    · exact ha'.trans hb'.symm
    · exact absurd (List.mem_map.2 ⟨b, hb', by rw [← ha', e]⟩) hn.1
    · exact absurd (List.mem_map.2 ⟨a, ha', by rw [← hb', e]⟩) hn.1
    · exact ih hn.2 ha' hb'

section
variable {accs : List (Int × Name × List Char × List Char)} {s : State} (ok : Ok sha accs s)
include ok

theorem find_some {a} (ha : a ∈ accs) : s.find a.2.1 = some (doc sha a) := by
  unfold State.find
  rw [ok.db]
  cases hf : (accs.map (doc sha)).find? (·.name = a.2.1) with
  | none => exact absurd (List.find?_eq_none.1 hf _ (List.mem_map.2 ⟨a, ha, rfl⟩)) (by simp [doc])
  | some u =>
    obtain ⟨b, hb, rfl⟩ := List.mem_map.1 (List.mem_of_find?_eq_some hf)
    have hbn := List.find?_some hf
    have hbn : b.2.1 = a.2.1 := of_decide_eq_true hbn
    rw [unique_name ok.unique hb ha hbn]

theorem find_none {n : Name} (hn : ∀ a ∈ accs, a.2.1 ≠ n) : s.find n = none := by
  unfold State.find
  rw [ok.db, List.find?_eq_none]
  intro u hu
  obtain ⟨b, hb, rfl⟩ := List.mem_map.1 hu
  exact fun g => hn b hb (of_decide_eq_true g)

theorem find_cases {n : Name} {u : User} (hu : s.find n = some u) : ∃ a ∈ accs, a.2.1 = n ∧ u = doc sha a := by
  unfold State.find at hu
  rw [ok.db] at hu
  obtain ⟨b, hb, rfl⟩ := List.mem_map.1 (List.mem_of_find?_eq_some hu)
  have hbn := List.find?_some hu
  exact ⟨b, hb, of_decide_eq_true hbn, rfl⟩

theorem loginObj_some {a} (ha : a ∈ accs) : s.loginObj a.2.1 = ⟨a.1, sha (a.2.2.1 ++ a.2.2.2), a.2.2.2⟩ := by
  have hd : s.dbLogin a.2.1 = ⟨a.1, sha (a.2.2.1 ++ a.2.2.2), a.2.2.2⟩ := by
    unfold State.dbLogin
    rw [find_some ok ha]
    rfl
  unfold State.loginObj
  cases hl : s.logins a.2.1 with
  | none => exact hd
  | some l =>
    obtain ⟨b, hb, e1, e2⟩ := ok.logins _ l hl
    rw [unique_name ok.unique hb ha e1] at e2
    simp only
    split
    · exact hd
    · exact e2

theorem loginObj_none {n : Name} (hn : ∀ a ∈ accs, a.2.1 ≠ n) : s.loginObj n = ⟨0, [], []⟩ := by
  unfold State.loginObj
  cases hl : s.logins n with
  | none =>
    unfold State.dbLogin
    rw [find_none ok hn]
  | some l =>
    obtain ⟨b, hb, e1, _⟩ := ok.logins _ l hl
    exact absurd e1 (hn b hb)

theorem put_id {name : Name} {u : User} (hu : s.find name = some u) :
    Ok sha accs { s with ids := fun n => if n = name then some u.id else s.ids n } := by
  refine ⟨ok.db, ?_, ok.logins, ok.unique⟩
  intro n i hi
  simp only at hi
  split at hi
  · next e =>
    obtain ⟨a, ha, e1, rfl⟩ := find_cases ok hu
    exact ⟨a, ha, e1.trans e.symm, by simpa [doc] using hi⟩
  · exact ok.ids n i hi
end

theorem cases_name (accs : List (Int × Name × List Char × List Char)) (n : Name) :
    (∃ a ∈ accs, a.2.1 = n) ∨ (∀ a ∈ accs, a.2.1 ≠ n) := by
  by_cases g : ∃ a ∈ accs, a.2.1 = n
  · exact .inl g
  · exact .inr fun a ha e => g ⟨a, ha, e⟩

theorem ok_after (hsha : ∀ x, sha x ≠ []) (h : List Op) : Ok sha (accounts h) (after sha h) := by
  induction h with
  | nil => exact ⟨rfl, by simp [after, State.init], by simp [after, State.init], .nil⟩
  | cons o h ih =>
    rw [after]
    generalize after sha h = s at ih
    cases o with
    | register name password id salt =>
      rcases cases_name (accounts h) name with ⟨a, ha, e⟩ | hn
      · have hacc : accounts (.register name password id salt :: h) = accounts h := by
          simp only [accounts]
          rw [if_pos (List.any_eq_true.2 ⟨a, ha, by simpa using e⟩)]
        have hf : s.find name = some (doc sha a) := e ▸ find_some ih ha
        simp only [State.step, State.register, hf, hacc]
        exact ih
      · have hacc : accounts (.register name password id salt :: h) = accounts h ++ [(id, name, password, salt)] := by
          simp only [accounts]
          rw [if_neg]
          intro g
          obtain ⟨a, ha, e⟩ := List.any_eq_true.1 g
          exact hn a ha (by simpa using e)
        simp only [State.step, State.register, find_none ih hn, hacc]
        refine ⟨?_, ?_, ?_, ?_⟩
        · simp only [ih.db, List.map_append, List.map_cons, List.map_nil, doc]
        · intro n i hi
          obtain ⟨a, ha, e⟩ := ih.ids n i hi
          exact ⟨a, List.mem_append_left _ ha, e⟩
        · intro n l hl
          obtain ⟨a, ha, e⟩ := ih.logins n l hl
          exact ⟨a, List.mem_append_left _ ha, e⟩
        · rw [List.map_append, List.nodup_append]
          refine ⟨ih.unique, by simp, ?_⟩
          intro x hx y hy e
          obtain ⟨a, ha, rfl⟩ := List.mem_map.1 hx
          simp only [List.map_cons, List.map_nil, List.mem_singleton] at hy
          exact hn a ha (e.trans hy)
    | login name password =>
      show Ok sha (accounts h) _
      simp only [State.step, State.login]
      split
      · exact ih
      · next hs =>
        refine ⟨ih.db, ih.ids, ?_, ih.unique⟩
        intro n l hl
        simp only at hl
        split at hl
        · next hnn =>
          subst hnn
          rcases cases_name (accounts h) n with ⟨a, ha, e⟩ | hn
          · subst e
            rw [loginObj_some ih ha] at hl
            exact ⟨a, ha, rfl, by simpa using hl.symm⟩
          · rw [loginObj_none ih hn] at hs
            exact absurd (Decidable.not_not.1 hs) (hsha _)
        · exact ih.logins n l hl
    | userId name =>
      show Ok sha (accounts h) _
      simp only [State.step, State.userId]
      split
      · exact ih
      · split
        · exact ih
        · next u hu => exact put_id ih hu
    | creator name =>
      show Ok sha (accounts h) _
      simp only [State.step, State.creator]
      split
      · split
        · exact ih
        · next u hu => exact put_id ih hu
      · exact ih
    | mentions names => exact ih
    | loseId name =>
      refine ⟨ih.db, ?_, ih.logins, ih.unique⟩
      intro n i hi
      simp only [State.step] at hi
      split at hi
      · cases hi
      · exact ih.ids n i hi
    | loseLogin name =>
      refine ⟨ih.db, ih.ids, ?_, ih.unique⟩
      intro n l hl
      simp only [State.step] at hl
      split at hl
      · cases hl
      · exact ih.logins n l hl
end

/-! ### Theorems -/

/-- C94: for every history, whatever the cache loses: Login succeeds exactly with the password of the account (if the hash has no
collisions), and the token has the identifier of the account. -/
theorem C94_login (sha : List Char → List Char) (hsha : ∀ x, sha x ≠ []) (inj : ∀ x y, sha x = sha y → x = y) (h : List Op)
    (name : Name) (password : List Char) (t : Reply) :
    reply sha h (.login name password) = t ↔
      (∃ id salt, (id, name, password, salt) ∈ accounts h ∧ t = .token name id) ∨
      ((∀ id salt, (id, name, password, salt) ∉ accounts h) ∧ t = .error) := by
  have ok := ok_after hsha h
  rcases cases_name (accounts h) name with ⟨⟨i, n, pw, sl⟩, ha, e⟩ | hn
  · simp only at e
    subst e
    have hl := loginObj_some ok ha
    simp only at hl
    by_cases hp : password = pw
    · subst hp
      have : reply sha h (.login n password) = .token n i := by simp [reply, State.step, State.login, hl]
      rw [this]
      constructor
      · rintro rfl
        exact .inl ⟨i, sl, ha, rfl⟩
      · rintro (⟨id, salt, hm, rfl⟩ | ⟨hno, _⟩)
        · have := unique_name ok.unique ha hm rfl
          cases this
          rfl
        · exact absurd ha (hno i sl)
    · have hne : sha (password ++ sl) ≠ sha (pw ++ sl) := fun g => hp (List.append_cancel_right (inj _ _ g))
      have : reply sha h (.login n password) = .error := by simp [reply, State.step, State.login, hl, hne]
      have hno : ∀ id salt, (id, n, password, salt) ∉ accounts h := by
        intro id salt hm
        have := unique_name ok.unique ha hm rfl
        cases this
        exact hp rfl
      rw [this]
      constructor
      · rintro rfl
        exact .inr ⟨hno, rfl⟩
      · rintro (⟨id, salt, hm, _⟩ | ⟨_, rfl⟩)
        · exact absurd hm (hno id salt)
        · rfl
  · have : reply sha h (.login name password) = .error := by
      simp [reply, State.step, State.login, loginObj_none ok hn, hsha]
    have hno : ∀ id salt, (id, name, password, salt) ∉ accounts h := fun id salt hm => hn _ hm rfl
    rw [this]
    constructor
    · rintro rfl
      exact .inr ⟨hno, rfl⟩
    · rintro (⟨id, salt, hm, _⟩ | ⟨_, rfl⟩)
      · exact absurd hm (hno id salt)
      · rfl

/-- C94: a name can be registered once; the first registration counts: registering succeeds exactly if nobody has the name. -/
theorem C94_register_partial (sha : List Char → List Char) (hsha : ∀ x, sha x ≠ []) (h : List Op) (name : Name) (password salt : List Char)
    (id : Int) :
    (reply sha h (.register name password id salt) = .ok ↔ ∀ a ∈ accounts h, a.2.1 ≠ name) ∧
    (reply sha h (.register name password id salt) ≠ .ok → reply sha h (.register name password id salt) = .error) := by
  have ok := ok_after hsha h
  rcases cases_name (accounts h) name with ⟨a, ha, e⟩ | hn
  · have : reply sha h (.register name password id salt) = .error := by
      subst e
      simp [reply, State.step, State.register, find_some ok ha]
    rw [this]
    exact ⟨⟨fun g => (by cases g), fun g => absurd e (g a ha)⟩, fun _ => rfl⟩
  · have : reply sha h (.register name password id salt) = .ok := by
      simp [reply, State.step, State.register, find_none ok hn]
    rw [this]
    exact ⟨⟨fun _ => hn, fun _ => rfl⟩, fun g => absurd rfl g⟩

/-- C94: the social graph knows exactly the users who have an account: each registration that succeeds, and no other call, has inserted its
identifier there (with `InsertUser`). -/
theorem C94_in_graph (sha : List Char → List Char) (hsha : ∀ x, sha x ≠ []) (h : List Op) :
    (after sha h).graph = (accounts h).map (·.1) := by
  induction h with
  | nil => rfl
  | cons o h ih =>
    have ok := ok_after hsha h
    rw [after]
    generalize after sha h = s at ih ok
    cases o with
    | register name password id salt =>
      rcases cases_name (accounts h) name with ⟨a, ha, e⟩ | hn
      · have hf : s.find name = some (doc sha a) := e ▸ find_some ok ha
        simp only [accounts]
        rw [if_pos (List.any_eq_true.2 ⟨a, ha, by simpa using e⟩)]
        simpa only [State.step, State.register, hf] using ih
      · simp only [accounts]
        rw [if_neg (by
          intro g
          obtain ⟨a, ha, e⟩ := List.any_eq_true.1 g
          exact hn a ha (by simpa using e))]
        simp only [State.step, State.register, find_none ok hn, ih, List.map_append, List.map_cons, List.map_nil]
    | login name password => simp only [accounts, State.step, State.login]; split <;> exact ih
    | userId name => simp only [accounts, State.step, State.userId]; split <;> (try split) <;> exact ih
    | creator name => simp only [accounts, State.step, State.creator]; split <;> (try split) <;> exact ih
    | mentions names => exact ih
    | loseId name => exact ih
    | loseLogin name => exact ih

/-- C94 refuted: the documentation promises an error if the identifier is taken: two users can have the same identifier. -/
theorem C94_same_id_refuted (sha : List Char → List Char) (n m : Name) (hnm : n ≠ m) (p q s t : List Char) (id : Int) :
    reply sha [.register n p id s] (.register m q id t) = .ok ∧
    reply sha [.register m q id t, .register n p id s] (.userId n) = .id id ∧
    reply sha [.register m q id t, .register n p id s] (.userId m) = .id id := by
  simp [reply, after, State.step, State.register, State.find, State.init, State.userId, List.find?_cons, hnm, Ne.symm hnm]

/-- C94: for every history, whatever the cache loses: GetUserId returns the identifier of the account with that name and an error if there
is none; ComposeCreatorWithUsername agrees. -/
theorem C94_user_id (sha : List Char → List Char) (hsha : ∀ x, sha x ≠ []) (h : List Op) (name : Name) :
    (∀ a ∈ accounts h, a.2.1 = name → reply sha h (.userId name) = .id a.1 ∧ reply sha h (.creator name) = .users [(a.1, name)]) ∧
    ((∀ a ∈ accounts h, a.2.1 ≠ name) → reply sha h (.userId name) = .error ∧ reply sha h (.creator name) = .error) := by
  have ok := ok_after hsha h
  constructor
  · intro a ha e
    subst e
    have hf := find_some ok ha
    simp only [reply, State.step, State.userId, State.creator]
    cases hi : (after sha h).ids a.2.1 with
    | none => simp [hf, doc]
    | some i =>
      obtain ⟨b, hb, e1, rfl⟩ := ok.ids _ i hi
      rw [unique_name ok.unique hb ha e1]
      refine ⟨rfl, ?_⟩
      by_cases hm : a.1 = -1
      · simp [hm, hf, doc]
      · simp [hm]
  · intro hn
    have hi : (after sha h).ids name = none := by
      cases hi : (after sha h).ids name with
      | none => rfl
      | some i =>
        obtain ⟨b, hb, e1, _⟩ := ok.ids _ i hi
        exact absurd e1 (hn b hb)
    simp [reply, State.step, State.userId, State.creator, hi, find_none ok hn]

/-- C94: for every history, whatever the cache loses: ComposeUserMentions returns the users with the names that are given, and no others.
Missing from the full property: names that nobody has should be an error (`C94_mentions_refuted`). -/
theorem C94_mentions_partial (sha : List Char → List Char) (hsha : ∀ x, sha x ≠ []) (h : List Op) (names : List Name) :
    ∃ l, reply sha h (.mentions names) = .users l ∧
      ∀ id name, (id, name) ∈ l ↔ name ∈ names ∧ ∃ password salt, (id, name, password, salt) ∈ accounts h := by
  have ok := ok_after hsha h
  refine ⟨_, rfl, fun id name => ?_⟩
  have cached : ∀ id name, (id, name) ∈ (after sha h).cachedMentions names ↔
      name ∈ names ∧ (after sha h).ids name = some id ∧ id ≠ 0 := by
    intro id name
    simp only [State.cachedMentions, List.mem_filterMap]
    constructor
    · rintro ⟨n, hn, e⟩
      split at e
      · next i hi =>
        split at e
        · next h0 =>
          cases e
          exact ⟨hn, hi, h0⟩
        · cases e
      · cases e
    · rintro ⟨hn, hi, h0⟩
      refine ⟨name, hn, ?_⟩
      simp only [hi]
      rw [if_pos h0]
  simp only [State.mentions, List.mem_append, cached, List.mem_map, List.mem_filter]
  constructor
  · rintro (⟨hn, hi, _⟩ | ⟨u, ⟨hu, hc⟩, e⟩)
    · obtain ⟨⟨a1, a2, a3, a4⟩, ha, e1, e2⟩ := ok.ids _ _ hi
      simp only at e1 e2
      subst e1 e2
      exact ⟨hn, a3, a4, ha⟩
    · rw [ok.db] at hu
      obtain ⟨⟨a1, a2, a3, a4⟩, ha, rfl⟩ := List.mem_map.1 hu
      simp only [doc, Prod.mk.injEq] at e
      obtain ⟨rfl, rfl⟩ := e
      simp only [doc, Bool.and_eq_true, List.contains_eq_mem, decide_eq_true_eq] at hc
      exact ⟨hc.1, a3, a4, ha⟩
  · rintro ⟨hn, password, salt, ha⟩
    by_cases hc : ∃ i, (after sha h).ids name = some i ∧ i ≠ 0
    · obtain ⟨i, hi, h0⟩ := hc
      obtain ⟨b, hb, e1, e2⟩ := ok.ids _ _ hi
      have := unique_name ok.unique hb ha e1
      subst this
      simp only at e2
      subst e2
      exact .inl ⟨hn, hi, h0⟩
    · right
      refine ⟨doc sha (id, name, password, salt), ⟨by rw [ok.db]; exact List.mem_map.2 ⟨_, ha, rfl⟩, ?_⟩, rfl⟩
      simp only [doc, Bool.and_eq_true, List.contains_eq_mem, decide_eq_true_eq, Bool.not_eq_true', List.any_eq_false]
      refine ⟨hn, ?_⟩
      rintro ⟨i, n⟩ hm e
      have e : n = name := of_decide_eq_true e
      subst e
      exact hc ⟨i, ((cached i n).1 hm).2⟩

/-- C94 refuted: a name that nobody has is left out without an error. -/
theorem C94_mentions_refuted (sha : List Char → List Char) (name : Name) : reply sha [] (.mentions [name]) = .users [] := by
  simp [reply, after, State.step, State.init, State.mentions, State.cachedMentions]

-- a hash that satisfies the hypotheses, and a history
example : (∀ x : List Char, ('#' :: x) ≠ []) ∧ (∀ x y : List Char, ('#' :: x) = ('#' :: y) → x = y) :=
  ⟨by simp, fun x y h => by simpa using h⟩
example : (reply ('#' :: ·) [.login ['a'] ['p'], .register ['b'] ['q'] 2 ['t'], .register ['a'] ['r'] 3 ['u'], .register ['a'] ['p'] 1 ['s']]
    (.login ['a'] ['p']), reply ('#' :: ·) [.loseLogin ['a'], .register ['a'] ['r'] 3 ['u'], .register ['a'] ['p'] 1 ['s']] (.login ['a'] ['r']))
    = (.token ['a'] 1, .error) := by decide +kernel
example : reply ('#' :: ·) [.userId ['b'], .register ['b'] ['q'] 2 ['t'], .register ['a'] ['p'] 0 ['s']] (.mentions [['a'], ['b'], ['c']]) =
    .users [(2, ['b']), (0, ['a'])] := by decide +kernel

end Verif.Social.Accounts
