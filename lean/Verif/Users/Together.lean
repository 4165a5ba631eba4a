import Verif.Users.FailProps
import Verif.Trains.Concurrent
/-
C142: cards and addresses that are posted at the same time.
-/
namespace Verif.Users
open Lib
open Verif.NoSQL (Ret)
open Verif.Trains (Prog orErr reading writing works Together)
variable [Lib]

/-- A call that posts a card or an address, and the ObjectID that it makes. -/
structure Post where
  n : Nat
  userid : Str
  what : Card ⊕ Address

/-- The call. -/
def Post.op (p : Post) : Op := match p.what with
  | .inl c => .postCard p.userid c
  | .inr a => .postAddress p.userid a

/-- The cards that are posted, with their identifiers. -/
def postedCards (todo : List Post) : List (Nat × Card) := todo.filterMap fun p => match p.what with
  | .inl c => some (p.n, c)
  | .inr _ => none

/-- The addresses that are posted, with their identifiers. -/
def postedAddresses (todo : List Post) : List (Nat × Address) := todo.filterMap fun p => match p.what with
  | .inl _ => none
  | .inr a => some (p.n, a)

/-- What is posted for the user with an identifier. -/
def postedFor (id : Nat) (todo : List Post) : List Post := todo.filter fun p => p.userid ≠ [] ∧ fromHex p.userid = some id

/-! ### Where a call is -/

private def put (p : Post) (s : State) : State × Ret Unit := match p.what with
  | .inl c => putCard p.n c s
  | .inr a => putAddress p.n a s

private def link (p : Post) (id : Nat) (s : State) : State × Ret Unit := match p.what with
  | .inl _ => linkCard id p.n s
  | .inr _ => linkAddress id p.n s

private theorem callP_post (p : Post) : callP p.n p.op = if p.userid = [] then writing (put p) (.id (hex p.n))
    else match fromHex p.userid with
      | none => .ret .error
      | some id => .call (put p) (orErr fun () => writing (link p id) (.id (hex p.n))) := by
  obtain ⟨n, u, w⟩ := p
  cases w <;> rfl

private theorem put_ok (p : Post) (s : State) : (put p s).2 = .ok () := by
  unfold put; cases p.what <;> rfl

private theorem link_ok (p : Post) (id : Nat) (s : State) : (link p id s).2 = .ok () := by
  unfold link; cases p.what <;> rfl

/-- At its start, after the first write, and at its end. -/
private inductive At : Post × Nat → Prog State Reply → Prop where
  | start (p : Post) : At (p, 0) (callP p.n p.op)
  | put (p : Post) (id : Nat) (hu : p.userid ≠ []) (h : fromHex p.userid = some id) : At (p, 1) (writing (link p id) (.id (hex p.n)))
  | ended (p : Post) : At (p, 2) (.ret (.ok (.id (hex p.n))))

/-- What is on file and what belongs to a user. -/
private def fileCards (l : List (Post × Nat)) : List (Nat × Card) := postedCards ((l.filter fun t => 1 ≤ t.2).map (·.1))
private def fileAddresses (l : List (Post × Nat)) : List (Nat × Address) := postedAddresses ((l.filter fun t => 1 ≤ t.2).map (·.1))
private def userCards (id : Nat) (l : List (Post × Nat)) : List Nat :=
  (postedCards (postedFor id ((l.filter fun t => t.2 = 2).map (·.1)))).map (·.1)
private def userAddresses (id : Nat) (l : List (Post × Nat)) : List Nat :=
  (postedAddresses (postedFor id ((l.filter fun t => t.2 = 2).map (·.1)))).map (·.1)

/-- A user without addresses and cards. -/
def bare (u : DbUser) : DbUser := { u with addresses := [], cards := [] }

private structure Inv (s0 s : State) (l : List (Post × Nat)) : Prop where
  cards : s.cards.Perm (s0.cards ++ fileCards l)
  addresses : s.addresses.Perm (s0.addresses ++ fileAddresses l)
  bares : s.users.map bare = s0.users.map bare
  users : ∀ (k : Nat) u u', s0.users[k]? = some u → s.users[k]? = some u' →
    u'.cards.Perm (u.cards ++ userCards u.id l) ∧ u'.addresses.Perm (u.addresses ++ userAddresses u.id l)

private theorem getElem_update (id : Nat) (f : DbUser → DbUser) : ∀ (us : List DbUser), (us.map (·.id)).Nodup → ∀ k : Nat,
    (updateUser id f us)[k]? = us[k]?.map fun u => if u.id = id then f u else u := by
  intro us
  induction us with
  | nil => intro _ k; simp [updateUser]
  | cons u us ih =>
    intro h k
    simp only [List.map_cons, List.nodup_cons] at h
    simp only [updateUser]
    by_cases hu : u.id = id
    · rw [if_pos hu]
      cases k with
      | zero => simp [hu]
      | succ k =>
        simp only [List.getElem?_cons_succ]
        cases hk : us[k]? with
        | none => rfl
        | some v =>
          have : v.id ≠ id := fun e => h.1 (by rw [hu, ← e]; exact List.mem_map.2 ⟨v, List.mem_of_getElem? hk, rfl⟩)
          simp [this]
    · rw [if_neg hu]
      cases k with
      | zero => simp [hu]
      | succ k => simpa using ih h.2 k

private theorem bare_update (id : Nat) (f : DbUser → DbUser) (hf : ∀ u, bare (f u) = bare u) (us : List DbUser) :
    (updateUser id f us).map bare = us.map bare := by
  induction us with
  | nil => rfl
  | cons u us ih =>
    simp only [updateUser]
    split
    · simp [hf]
    · simp [ih]

private theorem insert_perm {α : Type} (x : List α) (a b : List α) (y : α) {l : List α} (h : l.Perm (x ++ (a ++ b))) :
    (l ++ [y]).Perm (x ++ (a ++ y :: b)) := by
  have h1 : (l ++ [y]).Perm (y :: l) := List.perm_append_comm
  have h2 : (y :: l).Perm (y :: ((x ++ a) ++ b)) := by rw [List.append_assoc]; exact h.cons y
  have h3 : (y :: ((x ++ a) ++ b)).Perm ((x ++ a) ++ y :: b) := List.perm_middle.symm
  have := h1.trans (h2.trans h3)
  rwa [List.append_assoc] at this

/-- The first write. -/
private theorem inv_put {s0 s : State} {a b : List (Post × Nat)} {p : Post} (h : Inv s0 s (a ++ (p, 0) :: b)) (j : Nat) (hj : 1 ≤ j)
    (hl : j = 2 → p.userid = []) : Inv s0 (put p s).1 (a ++ (p, j) :: b) := by
  have e1 : ∀ id, postedFor id ((List.filter (fun t : Post × Nat => decide (t.2 = 2)) (a ++ (p, j) :: b)).map (·.1)) =
      postedFor id ((List.filter (fun t : Post × Nat => decide (t.2 = 2)) (a ++ (p, 0) :: b)).map (·.1)) := by
    intro id
    simp only [List.filter_append, List.filter_cons, List.map_append, postedFor]
    by_cases h2 : j = 2
    · simp [h2, hl h2]
    · simp [h2]
  have e2 : ((List.filter (fun t : Post × Nat => decide (1 ≤ t.2)) (a ++ (p, j) :: b)).map (·.1)) =
      ((List.filter (fun t : Post × Nat => decide (1 ≤ t.2)) a).map (·.1)) ++ p :: ((List.filter (fun t : Post × Nat => decide (1 ≤ t.2)) b).map (·.1)) := by
    simp [List.filter_append, List.filter_cons, hj]
  have e3 : ((List.filter (fun t : Post × Nat => decide (1 ≤ t.2)) (a ++ (p, 0) :: b)).map (·.1)) =
      ((List.filter (fun t : Post × Nat => decide (1 ≤ t.2)) a).map (·.1)) ++ ((List.filter (fun t : Post × Nat => decide (1 ≤ t.2)) b).map (·.1)) := by
    simp [List.filter_append, List.filter_cons]
  have hu : (put p s).1.users = s.users := by unfold put; cases p.what <;> rfl
  refine ⟨?_, ?_, by rw [hu]; exact h.bares, ?_⟩
  · have := h.cards
    simp only [fileCards, e2, e3, postedCards, List.filterMap_append, List.filterMap_cons] at this ⊢
    unfold put
    cases p.what with
    | inl c => exact insert_perm _ _ _ _ this
    | inr c => exact this
  · have := h.addresses
    simp only [fileAddresses, e2, e3, postedAddresses, List.filterMap_append, List.filterMap_cons] at this ⊢
    unfold put
    cases p.what with
    | inl c => exact this
    | inr c => exact insert_perm _ _ _ _ this
  · intro k u u' h1 h2
    rw [hu] at h2
    have := h.users k u u' h1 h2
    simp only [userCards, userAddresses, e1] at this ⊢
    exact this

/-- The second write. -/
private theorem inv_link {s0 s : State} (hd : (s0.users.map (·.id)).Nodup) {a b : List (Post × Nat)} {p : Post} (h : Inv s0 s (a ++ (p, 1) :: b))
    (hn : ∀ q ∈ a ++ b, q.1.n ≠ p.n) (hf : ∀ u ∈ s0.users, p.n ∉ u.cards ∧ p.n ∉ u.addresses)
    {id : Nat} (hne : p.userid ≠ []) (hid : fromHex p.userid = some id) : Inv s0 (link p id s).1 (a ++ (p, 2) :: b) := by
  have e2 : ((List.filter (fun t : Post × Nat => decide (1 ≤ t.2)) (a ++ (p, 2) :: b)).map (·.1)) =
      ((List.filter (fun t : Post × Nat => decide (1 ≤ t.2)) (a ++ (p, 1) :: b)).map (·.1)) := by
    simp [List.filter_append, List.filter_cons]
  have e3 : ((List.filter (fun t : Post × Nat => decide (t.2 = 2)) (a ++ (p, 2) :: b)).map (·.1)) =
      ((List.filter (fun t : Post × Nat => decide (t.2 = 2)) a).map (·.1)) ++ p :: ((List.filter (fun t : Post × Nat => decide (t.2 = 2)) b).map (·.1)) := by
    simp [List.filter_append, List.filter_cons]
  have e4 : ((List.filter (fun t : Post × Nat => decide (t.2 = 2)) (a ++ (p, 1) :: b)).map (·.1)) =
      ((List.filter (fun t : Post × Nat => decide (t.2 = 2)) a).map (·.1)) ++ ((List.filter (fun t : Post × Nat => decide (t.2 = 2)) b).map (·.1)) := by
    simp [List.filter_append, List.filter_cons]
  have hc : (link p id s).1.cards = s.cards := by unfold link; cases p.what <;> rfl
  have ha : (link p id s).1.addresses = s.addresses := by unfold link; cases p.what <;> rfl
  have hid' : (s.users.map (·.id)) = s0.users.map (·.id) := by
    have := congrArg (List.map (·.id)) h.bares
    simpa [bare, Function.comp_def] using this
  have hd' : (s.users.map (·.id)).Nodup := by rw [hid']; exact hd
  -- the identifier is new to the user
  have mem : ∀ q ∈ (List.filter (fun t : Post × Nat => decide (t.2 = 2)) (a ++ (p, 1) :: b)).map (·.1), q.n ≠ p.n := by
    intro q hq
    rw [e4] at hq
    rcases List.mem_append.1 hq with hq | hq
    · obtain ⟨t, ht, rfl⟩ := List.mem_map.1 hq
      exact hn t (List.mem_append_left _ (List.mem_filter.1 ht).1)
    · obtain ⟨t, ht, rfl⟩ := List.mem_map.1 hq
      exact hn t (List.mem_append_right _ (List.mem_filter.1 ht).1)
  have newc : ∀ i, p.n ∉ userCards i (a ++ (p, 1) :: b) := by
    intro i hi
    simp only [userCards, postedCards, postedFor, List.mem_map, List.mem_filterMap] at hi
    obtain ⟨e, ⟨q, hq, he⟩, hen⟩ := hi
    have hq' := mem q (List.mem_filter.1 hq).1
    cases hw : q.what with
    | inl c => rw [hw] at he; cases he; exact hq' hen
    | inr c => rw [hw] at he; cases he
  have newa : ∀ i, p.n ∉ userAddresses i (a ++ (p, 1) :: b) := by
    intro i hi
    simp only [userAddresses, postedAddresses, postedFor, List.mem_map, List.mem_filterMap] at hi
    obtain ⟨e, ⟨q, hq, he⟩, hen⟩ := hi
    have hq' := mem q (List.mem_filter.1 hq).1
    cases hw : q.what with
    | inr c => rw [hw] at he; cases he; exact hq' hen
    | inl c => rw [hw] at he; cases he
  refine ⟨by rw [hc]; simpa only [fileCards, e2] using h.cards, by rw [ha]; simpa only [fileAddresses, e2] using h.addresses, ?_, ?_⟩
  · rw [← h.bares]
    unfold link
    cases p.what with
    | inl _ => exact bare_update id (fun u => { u with cards := addToSet p.n u.cards }) (fun _ => rfl) s.users
    | inr _ => exact bare_update id (fun u => { u with addresses := addToSet p.n u.addresses }) (fun _ => rfl) s.users
  · intro k u u' h1 h2
    have hu := hf u (List.mem_of_getElem? h1)
    have idk : ∀ w, s.users[k]? = some w → w.id = u.id := by
      intro w hw
      have := congrArg (·[k]?) hid'
      simp only [List.getElem?_map, hw, h1, Option.map_some, Option.some.injEq] at this
      exact this
    unfold link at h2
    -- what was there before
    have old : ∀ w, s.users[k]? = some w → p.n ∉ w.cards ∧ p.n ∉ w.addresses := by
      intro w hw
      obtain ⟨g1, g2⟩ := h.users k u w h1 hw
      refine ⟨fun hm => ?_, fun hm => ?_⟩
      · rcases List.mem_append.1 (g1.mem_iff.1 hm) with hm | hm
        · exact hu.1 hm
        · exact newc _ hm
      · rcases List.mem_append.1 (g2.mem_iff.1 hm) with hm | hm
        · exact hu.2 hm
        · exact newa _ hm
    cases hw : p.what with
    | inl c =>
      rw [hw] at h2
      simp only [linkCard, getElem_update id _ _ hd'] at h2
      obtain ⟨w, hwk, rfl⟩ := Option.map_eq_some_iff.1 h2
      obtain ⟨g1, g2⟩ := h.users k u w h1 hwk
      have hwid := idk w hwk
      simp only [userCards, userAddresses, e3, e4] at g1 g2 ⊢
      simp only [postedFor, postedCards, postedAddresses, List.filter_append, List.filter_cons,
        List.filterMap_append, List.map_append] at g1 g2 ⊢
      by_cases he : w.id = id
      · have hsome : fromHex p.userid = some u.id := by rw [hid, ← he, hwid]
        rw [if_pos he, if_pos (by simp [hne, hsome])]
        simp only [addToSet, List.contains_iff_mem, if_neg (old w hwk).1, List.filterMap_cons, hw, List.map_cons]
        exact ⟨insert_perm _ _ _ _ g1, g2⟩
      · have hsome : ¬ fromHex p.userid = some u.id := by rw [hid, ← hwid]; simpa using Ne.symm he
        rw [if_neg he, if_neg (fun h => hsome (of_decide_eq_true h).2)]
        exact ⟨g1, g2⟩
    | inr c =>
      rw [hw] at h2
      simp only [linkAddress, getElem_update id _ _ hd'] at h2
      obtain ⟨w, hwk, rfl⟩ := Option.map_eq_some_iff.1 h2
      obtain ⟨g1, g2⟩ := h.users k u w h1 hwk
      have hwid := idk w hwk
      simp only [userCards, userAddresses, e3, e4] at g1 g2 ⊢
      simp only [postedFor, postedCards, postedAddresses, List.filter_append, List.filter_cons,
        List.filterMap_append, List.map_append] at g1 g2 ⊢
      by_cases he : w.id = id
      · have hsome : fromHex p.userid = some u.id := by rw [hid, ← he, hwid]
        rw [if_pos he, if_pos (by simp [hne, hsome])]
        simp only [addToSet, List.contains_iff_mem, if_neg (old w hwk).2, List.filterMap_cons, hw, List.map_cons]
        exact ⟨g1, insert_perm _ _ _ _ g2⟩
      · have hsome : ¬ fromHex p.userid = some u.id := by rw [hid, ← hwid]; simpa using Ne.symm he
        rw [if_neg he, if_neg (fun h => hsome (of_decide_eq_true h).2)]
        exact ⟨g1, g2⟩

/-! ### All of them -/

private inductive Ats : List (Post × Nat) → List (Prog State Reply) → Prop where
  | nil : Ats [] []
  | cons {t q l ps} : At t q → Ats l ps → Ats (t :: l) (q :: ps)

private theorem Ats.append {l m : List (Post × Nat)} {a b : List (Prog State Reply)} (h : Ats l a) (h' : Ats m b) : Ats (l ++ m) (a ++ b) := by
  induction h with
  | nil => exact h'
  | cons h1 _ ih => exact .cons h1 ih

private theorem Ats.split : ∀ (a : List (Prog State Reply)) {b : List (Prog State Reply)} {q : Prog State Reply} {l : List (Post × Nat)},
    Ats l (a ++ q :: b) → ∃ la t lb, l = la ++ t :: lb ∧ Ats la a ∧ At t q ∧ Ats lb b := by
  intro a
  induction a with
  | nil => intro b q l h; cases h with | cons h1 h2 => exact ⟨[], _, _, rfl, .nil, h1, h2⟩
  | cons p a ih =>
    intro b q l h
    cases h with
    | cons h1 h2 =>
      obtain ⟨la, t, lb, rfl, h3, h4, h5⟩ := ih h2
      exact ⟨_ :: la, t, lb, rfl, .cons h1 h3, h4, h5⟩

private theorem step {s0 s : State} (hd : (s0.users.map (·.id)).Nodup) {a b : List (Post × Nat)} {t : Post × Nat} {β : Type} {f : State → State × Ret β}
    {k : Ret β → Prog State Reply} (h : Inv s0 s (a ++ t :: b)) (ha : At t (.call f k)) (hw : t.1.userid ≠ [] → ∃ id, fromHex t.1.userid = some id)
    (hn : ∀ q ∈ a ++ b, q.1.n ≠ t.1.n) (hf : ∀ u ∈ s0.users, t.1.n ∉ u.cards ∧ t.1.n ∉ u.addresses) :
    ∃ j, At (t.1, j) (k (f s).2) ∧ Inv s0 (f s).1 (a ++ (t.1, j) :: b) := by
  generalize hq : Prog.call f k = q at ha
  cases ha with
  | ended p => cases hq
  | put p id hu hid =>
    unfold writing at hq
    cases hq
    refine ⟨2, ?_, inv_link hd h hn hf hu hid⟩
    rw [link_ok]
    exact .ended p
  | start p =>
    rw [callP_post] at hq
    by_cases hu : p.userid = []
    · rw [if_pos hu] at hq
      unfold writing at hq
      cases hq
      refine ⟨2, ?_, inv_put h 2 (by omega) fun _ => hu⟩
      rw [put_ok]
      exact .ended p
    · obtain ⟨id, hid⟩ := hw hu
      rw [if_neg hu] at hq
      simp only [hid] at hq
      cases hq
      refine ⟨1, ?_, inv_put h 1 (by omega) fun h => by omega⟩
      rw [put_ok]
      exact .put p id hu hid

private theorem together_inv {s0 : State} (hd : (s0.users.map (·.id)).Nodup) {s s' : State} {ps ps' : List (Prog State Reply)}
    (h : Together s ps s' ps') : ∀ l : List (Post × Nat), Ats l ps → Inv s0 s l → ((l.map (·.1)).map (·.n)).Nodup →
    (∀ p ∈ l.map (·.1), (p.userid ≠ [] → ∃ id, fromHex p.userid = some id) ∧ ∀ u ∈ s0.users, p.n ∉ u.cards ∧ p.n ∉ u.addresses) →
    ∃ l', Ats l' ps' ∧ Inv s0 s' l' ∧ l'.map (·.1) = l.map (·.1) := by
  induction h with
  | none s ps => intro l h1 h2 _ _; exact ⟨l, h1, h2, rfl⟩
  | call a b f k s s' ps' _ ih =>
    intro l h1 h2 h3 h4
    obtain ⟨la, t, lb, rfl, k1, k2, k3⟩ := h1.split
    have h5 := h4 t.1 (by simp)
    obtain ⟨j, j1, j2⟩ := step hd h2 k2 h5.1 (by
      intro q hq e
      simp only [List.map_append, List.map_cons, List.nodup_append, List.nodup_cons, List.mem_map, List.mem_cons] at h3
      rcases List.mem_append.1 hq with hq | hq
      · exact h3.2.2 _ ⟨q.1, ⟨q, hq, rfl⟩, rfl⟩ _ (.inl rfl) e
      · exact h3.2.1.1 ⟨q.1, ⟨q, hq, rfl⟩, e⟩) h5.2
    have e : (la ++ (t.1, j) :: lb).map (·.1) = (la ++ t :: lb).map (·.1) := by simp
    obtain ⟨l', m1, m2, m3⟩ := ih (la ++ (t.1, j) :: lb) (k1.append (.cons j1 k3)) j2 (by rw [e]; exact h3) (by rw [e]; exact h4)
    exact ⟨l', m1, m2, m3.trans e⟩

private theorem all_ended {l : List (Post × Nat)} {ps : List (Prog State Reply)} (h : Ats l ps) : ∀ rs : List (Ret Reply), ps = rs.map .ret →
    (∀ p ∈ l.map (·.1), p.userid ≠ [] → ∃ id, fromHex p.userid = some id) →
    rs = (l.map (·.1)).map (fun p => .ok (.id (hex p.n))) ∧ ∀ t ∈ l, t.2 = 2 := by
  induction h with
  | nil => intro rs hr _; cases rs with
    | nil => exact ⟨rfl, by simp⟩
    | cons r rs => cases hr
  | @cons t q l ps h1 h2 ih =>
    intro rs hr hw
    cases rs with
    | nil => cases hr
    | cons r rs =>
      simp only [List.map_cons, List.cons.injEq] at hr
      obtain ⟨hq, hps⟩ := hr
      obtain ⟨i1, i2⟩ := ih rs hps fun p hp => hw p (by simp at hp ⊢; exact .inr hp)
      have : r = .ok (.id (hex t.1.n)) ∧ t.2 = 2 := by
        have hw' := hw t.1 (by simp)
        cases h1 with
        | ended p => cases hq; exact ⟨rfl, rfl⟩
        | put p id _ _ => unfold writing at hq; cases hq
        | start p =>
          rw [callP_post] at hq
          by_cases hu : p.userid = []
          · rw [if_pos hu] at hq
            unfold writing at hq
            cases hq
          · obtain ⟨id, hid⟩ := hw' hu
            rw [if_neg hu] at hq
            simp only [hid] at hq
            cases hq
      refine ⟨by rw [this.1, i1]; rfl, fun t' ht => ?_⟩
      rcases List.mem_cons.1 ht with rfl | ht
      · exact this.2
      · exact i2 t' ht

/-- C142: any number of calls of `PostCard` and `PostAddress` at the same time, after any history and in any order of their database calls,
each with a well-formed user identifier or none and with a new ObjectID of its own: when all have returned, each has returned its
identifier, exactly what was posted has been added to the cards and the addresses on file, and each user has gained exactly the cards and the
addresses posted for them; nothing else about the users has changed.  Missing from the full property: other calls at the same time
(`C142_login_refuted`). -/
theorem C142_posts_partial (os : List Op) (todo : List Post) (hn : (todo.map (·.n)).Nodup)
    (hnew : ∀ p ∈ todo, (calls State.init os).1.next ≤ p.n) (hw : ∀ p ∈ todo, p.userid = [] ∨ ∃ id, fromHex p.userid = some id)
    {s' : State} {rs : List (Ret Reply)} (h : Together (calls State.init os).1 (todo.map fun p => callP p.n p.op) s' (rs.map .ret)) :
    let s := (calls State.init os).1
    rs = todo.map (fun p => .ok (.id (hex p.n))) ∧
    s'.cards.Perm (s.cards ++ postedCards todo) ∧ s'.addresses.Perm (s.addresses ++ postedAddresses todo) ∧
    s'.users.map bare = s.users.map bare ∧
    ∀ (k : Nat) u u', s.users[k]? = some u → s'.users[k]? = some u' →
      u'.cards.Perm (u.cards ++ (postedCards (postedFor u.id todo)).map (·.1)) ∧
      u'.addresses.Perm (u.addresses ++ (postedAddresses (postedFor u.id todo)).map (·.1)) := by
  intro s
  have hr : Rep (Book.empty.history os) s := calls_rep os rep_init
  have hfresh : ∀ p ∈ todo, ∀ u ∈ s.users, p.n ∉ u.cards ∧ p.n ∉ u.addresses := by
    intro p hp u hu
    have h1 := hnew p hp
    have h1 : s.next ≤ p.n := h1
    rw [hr.next] at h1
    rw [hr.users] at hu
    obtain ⟨a, -, rfl⟩ := List.mem_map.1 hu
    refine ⟨fun hm => ?_, fun hm => ?_⟩
    · obtain ⟨e, he, hen⟩ := List.mem_map.1 hm
      have := hr.cardOk.lt e (List.mem_filter.1 he).1
      omega
    · obtain ⟨e, he, hen⟩ := List.mem_map.1 hm
      have := hr.addrOk.lt e (List.mem_filter.1 he).1
      omega
  have start : ∀ ps : List Post, Ats (ps.map fun p => (p, 0)) (ps.map fun p => callP p.n p.op) := by
    intro ps
    induction ps with
    | nil => exact .nil
    | cons p ps ih => exact .cons (.start p) ih
  have e0 : (todo.map fun p => (p, 0)).map (·.1) = todo := by simp [Function.comp_def]
  have f0 : ∀ (g : Nat → Bool), g 0 = false → ((todo.map fun p => (p, 0)).filter fun t : Post × Nat => g t.2) = [] := by
    intro g hg
    simp [List.filter_eq_nil_iff, hg]
  have hw' : ∀ p ∈ todo, p.userid ≠ [] → ∃ id, fromHex p.userid = some id := fun p hp hne => (hw p hp).resolve_left hne
  obtain ⟨l', h1, h2, h3⟩ := together_inv hr.userNodup h (todo.map fun p => (p, 0)) (start todo) (by
    refine ⟨?_, ?_, rfl, ?_⟩
    · simp only [fileCards, f0 (fun i => decide (1 ≤ i)) rfl, postedCards, List.map_nil, List.filterMap_nil, List.append_nil]
      exact .rfl
    · simp only [fileAddresses, f0 (fun i => decide (1 ≤ i)) rfl, postedAddresses, List.map_nil, List.filterMap_nil, List.append_nil]
      exact .rfl
    · intro k u u' g1 g2
      have : u = u' := Option.some.inj (g1.symm.trans g2)
      subst this
      simp only [userCards, userAddresses, f0 (fun i => decide (i = 2)) rfl, postedCards, postedAddresses, postedFor, List.map_nil,
        List.filter_nil, List.filterMap_nil, List.append_nil]
      exact ⟨.rfl, .rfl⟩) (by rw [e0]; exact hn) (by
      rw [e0]
      exact fun p hp => ⟨hw' p hp, hfresh p hp⟩)
  rw [e0] at h3
  obtain ⟨r1, r2⟩ := all_ended h1 rs rfl (by rw [h3]; exact hw')
  rw [h3] at r1
  have g1 : (l'.filter fun t : Post × Nat => decide (1 ≤ t.2)).map (·.1) = todo := by
    rw [List.filter_eq_self.2 (fun t ht => by simp [r2 t ht]), h3]
  have g2 : (l'.filter fun t : Post × Nat => decide (t.2 = 2)).map (·.1) = todo := by
    rw [List.filter_eq_self.2 (fun t ht => by simp [r2 t ht]), h3]
  refine ⟨r1, by simpa only [fileCards, g1] using h2.cards, by simpa only [fileAddresses, g1] using h2.addresses, h2.bares, ?_⟩
  intro k u u' i1 i2
  have := h2.users k u u' i1 i2
  simpa only [userCards, userAddresses, g2] using this

/-- C142 refuted: a login and the deletion of the same user at the same time.  The login returns the user without their card, although the
password is right, the user never was without that card, and after the deletion the login is refused. -/
theorem C142_login_refuted (p : Person) (pw salt : Str) (c : Card) (hx : hex 1 ≠ []) :
    let s := (calls State.init [.register p pw salt, .postCard (hex 1) c]).1
    ∃ s', Together s [callP 3 (.login p.username pw), callP 3 (.deleteUser (hex 1))] s' [.ret (.ok (.user ⟨hex 1, p, [], []⟩)), .ret (.ok .done)] ∧
      (call s (.login p.username pw)).2 ≠ .user ⟨hex 1, p, [], []⟩ ∧
      (call (call s (.deleteUser (hex 1))).1 (.login p.username pw)).2 = .error := by
  intro s
  have hs : s = ⟨[⟨1, p, hash pw salt, salt, [], [2]⟩], [], [(2, c)], 3⟩ := by
    simp [s, calls, call, register, createUser, createMany, postCard, hx, from_hex, updateUser, addToSet, State.init]
  refine ⟨⟨[], [], [], 3⟩, ?_, ?_, ?_⟩
  · rw [hs]
    simp only [callP, loginP, deleteUserP, from_hex, reading]
    refine .call [] _ _ _ _ _ _ ?_
    simp [orErr, addUserIDs, fetchP, hexToObjectIds, from_hex]
    refine .call [_] [] _ _ _ _ _ ?_
    simp [orErr, addUserIDs, hexToObjectIds, from_hex]
    refine .call [_] [] _ _ _ _ _ ?_
    simp [orErr, addUserIDs, hexToObjectIds, from_hex, dropAddresses]
    refine .call [_] [] _ _ _ _ _ ?_
    simp [orErr, dropCards, removeIds, writing]
    refine .call [] _ _ _ _ _ _ ?_
    simp [maskCCs]
    refine .call [_] [] _ _ _ _ _ ?_
    simp [orErr, dropUser]
    exact .none _ _
  · rw [hs]
    simp [call, login, getByIds, addUserIDs, hexToObjectIds, from_hex, maskCCs]
    cases maskCC c <;> simp
  · rw [hs]
    simp [call, login, deleteUser, from_hex, addUserIDs, hexToObjectIds, DbUser.zero, Ne.symm (hash_ne pw [])]

end Verif.Users
