import Verif.Users.Spec
namespace Verif.Users
variable [Lib]
open Lib

theorem hexToObjectIds_hex (l : List Nat) : hexToObjectIds (l.map hex) = some l := by
  induction l with
  | nil => rfl
  | cons a l ih => simp [hexToObjectIds, from_hex, ih]

/-! ### Lists with distinct identifiers -/

section
variable {α : Type}

theorem unique_id {l : List (Filed α)} (h : (l.map (·.id)).Nodup) {x y : Filed α} (hx : x ∈ l) (hy : y ∈ l)
    (e : x.id = y.id) : x = y := by
  induction l with
  | nil => simp at hx
  | cons a l ih =>
    simp only [List.map_cons, List.nodup_cons, List.mem_map, not_exists, not_and] at h
    rcases List.mem_cons.1 hx with h1 | h1 <;> rcases List.mem_cons.1 hy with h2 | h2
    · rw [h1, h2]
    · exact absurd (by rw [← e, h1]) (h.1 y h2)
    · exact absurd (by rw [e, h2]) (h.1 x h1)
    · exact ih h.2 h1 h2

theorem owned_ids {l : List (Filed α)} (h : (l.map (·.id)).Nodup) (o : Nat) {e : Filed α} (he : e ∈ l) :
    ((ownedBy o l).map (·.id)).contains e.id = decide (e.owner = some o) := by
  rw [List.contains_eq_mem]
  congr 1
  apply propext
  simp only [List.mem_map, ownedBy, List.mem_filter, decide_eq_true_eq]
  constructor
  · rintro ⟨x, ⟨hx, ho⟩, e1⟩
    rw [← unique_id h hx he e1]
    exact ho
  · exact fun ho => ⟨e, ⟨he, ho⟩, rfl⟩

/-- The stored form of an entry. -/
def Filed.pair (e : Filed α) : Nat × α := (e.id, e.val)

theorem filter_pair (l : List (Filed α)) (p : Nat → Bool) :
    (l.map Filed.pair).filter (fun e => p e.1) = (l.filter fun e => p e.id).map Filed.pair := by
  rw [List.filter_map]
  rfl

theorem getByIds_owned {l : List (Filed α)} (h : (l.map (·.id)).Nodup) (o : Nat) :
    getByIds (l.map Filed.pair) (((ownedBy o l).map (·.id)).map hex) = some ((ownedBy o l).map Filed.shown) := by
  generalize hk : ((ownedBy o l).map (·.id)).map hex = k
  unfold getByIds
  cases k with
  | nil =>
    have : ownedBy o l = [] := by simpa using hk
    simp [this]
  | cons x k =>
    simp only [← hk]
    rw [hexToObjectIds_hex]
    simp only []
    rw [filter_pair l (fun i => ((ownedBy o l).map (·.id)).contains i)]
    have : l.filter (fun e => ((ownedBy o l).map (·.id)).contains e.id) = ownedBy o l := by
      unfold ownedBy
      apply List.filter_congr
      intro e he
      exact owned_ids h o he
    rw [this, List.map_map]
    rfl

theorem removeIds_owned {l : List (Filed α)} (h : (l.map (·.id)).Nodup) (o : Nat) :
    removeIds ((ownedBy o l).map (·.id)) (l.map Filed.pair) = (l.filter fun e => e.owner ≠ some o).map Filed.pair := by
  unfold removeIds
  rw [filter_pair l (fun i => !((ownedBy o l).map (·.id)).contains i)]
  congr 1
  apply List.filter_congr
  intro e he
  rw [owned_ids h o he]
  simp

theorem removeIds_one (l : List (Filed α)) (n : Nat) :
    removeIds [n] (l.map Filed.pair) = (l.filter fun e => e.id ≠ n).map Filed.pair := by
  unfold removeIds
  rw [filter_pair l (fun i => !([n] : List Nat).contains i)]
  congr 1
  apply List.filter_congr
  intro e _
  by_cases h : e.id = n <;> simp [h]

theorem find_pair (l : List (Filed α)) (n : Nat) :
    (l.map Filed.pair).find? (fun e => e.1 = n) = (l.find? fun e => e.id = n).map Filed.pair := by
  rw [List.find?_map]
  rfl

theorem filter_id {β : Type} {l : List β} {f : β → Nat} (h : (l.map f).Nodup) (n : Nat) :
    (l.filter fun e => f e = n) = (l.find? fun e => f e = n).toList := by
  induction l with
  | nil => rfl
  | cons a l ih =>
    simp only [List.map_cons, List.nodup_cons, List.mem_map, not_exists, not_and] at h
    by_cases ha : f a = n
    · simp only [List.filter_cons, ha, decide_true, if_true, List.find?_cons, Option.toList_some, List.cons.injEq, true_and]
      rw [List.filter_eq_nil_iff]
      intro x hx
      have := h.1 x hx
      simp only [decide_eq_true_eq]
      omega
    · simp only [List.filter_cons, ha, decide_false, Bool.false_eq_true, if_false, List.find?_cons]
      exact ih h.2

theorem filed_cons (n : Nat) (o : Option Nat) (a : α) (l : List α) :
    filed n o (a :: l) = ⟨n, o, a⟩ :: filed (n + 1) o l := by
  unfold filed
  rw [List.mapIdx_cons]
  congr 1
  apply List.ext_getElem
  · simp
  · intro i h1 h2
    simp only [List.getElem_mapIdx]
    congr 1
    omega

theorem createMany_eq (o : Option Nat) (l : List α) (coll : List (Nat × α)) (n : Nat) :
    createMany coll n l = (coll ++ (filed n o l).map Filed.pair, n + l.length, (filed n o l).map (·.id)) := by
  induction l generalizing coll n with
  | nil => simp [createMany, filed]
  | cons a l ih =>
    simp only [createMany]
    rw [ih, filed_cons]
    simp only [List.append_assoc, List.map_cons, List.length_cons, Filed.pair, List.singleton_append, Prod.mk.injEq,
      true_and, and_true]
    omega

theorem mem_filed {n : Nat} {o : Option Nat} {l : List α} {e : Filed α} (h : e ∈ filed n o l) :
    n ≤ e.id ∧ e.id < n + l.length ∧ e.owner = o ∧ e.val ∈ l := by
  unfold filed at h
  obtain ⟨i, hi, rfl⟩ := List.mem_mapIdx.1 h
  refine ⟨?_, ?_, rfl, List.getElem_mem hi⟩
  · show n ≤ n + i; omega
  · show n + i < n + l.length; omega

theorem filed_nodup (n : Nat) (o : Option Nat) (l : List α) : ((filed n o l).map (·.id)).Nodup := by
  induction l generalizing n with
  | nil => simp [filed]
  | cons a l ih =>
    rw [filed_cons, List.map_cons, List.nodup_cons]
    refine ⟨?_, ih (n + 1)⟩
    simp only [List.mem_map, not_exists, not_and]
    intro e he h
    have := (mem_filed he).1
    omega

theorem ownedBy_append (o : Nat) (l m : List (Filed α)) : ownedBy o (l ++ m) = ownedBy o l ++ ownedBy o m :=
  List.filter_append ..

theorem ownedBy_none {o : Nat} {l : List (Filed α)} (h : ∀ e ∈ l, e.owner ≠ some o) : ownedBy o l = [] := by
  unfold ownedBy
  rw [List.filter_eq_nil_iff]
  intro e he
  simpa using h e he

theorem ownedBy_all {o : Nat} {l : List (Filed α)} (h : ∀ e ∈ l, e.owner = some o) : ownedBy o l = l := by
  unfold ownedBy
  rw [List.filter_eq_self]
  intro e he
  simpa using h e he

end

/-! ### Masking -/

theorem maskCC_long {c : Card} (h : 4 ≤ c.longNum.length) :
    maskCC c = some { c with longNum := masked c.longNum } := by
  unfold maskCC
  rw [if_neg (by omega)]
  congr 2
  unfold masked
  apply List.ext_getElem
  · simp only [List.length_append, List.length_replicate, List.length_drop, List.length_mapIdx]
    omega
  · intro i h1 h2
    simp only [List.length_mapIdx] at h2
    simp only [List.getElem_mapIdx]
    by_cases hi : i < c.longNum.length - 4
    · rw [List.getElem_append_left (by simpa using hi), List.getElem_replicate, if_pos (by omega)]
    · rw [List.getElem_append_right (by simpa using hi), List.getElem_drop, if_neg (by omega)]
      congr 1
      simp only [List.length_replicate]
      omega

theorem maskCCs_long (l : List (Filed Card)) (h : ∀ e ∈ l, 4 ≤ e.val.longNum.length) :
    maskCCs (l.map Filed.shown) =
      some (l.map fun e => (hex e.id, { e.val with longNum := masked e.val.longNum })) := by
  induction l with
  | nil => rfl
  | cons e l ih =>
    simp only [List.map_cons, Filed.shown, maskCCs]
    rw [maskCC_long (h e (.head _))]
    have := ih fun x hx => h x (.tail _ hx)
    simp only [Filed.shown] at this
    simp only [this]

/-! ### Updates of a user -/

theorem updateUser_none {id : Nat} {f : DbUser → DbUser} {l : List DbUser} (h : ∀ u ∈ l, u.id ≠ id) :
    updateUser id f l = l := by
  induction l with
  | nil => rfl
  | cons u l ih =>
    unfold updateUser
    rw [if_neg (h u (.head _)), ih fun x hx => h x (.tail _ hx)]

theorem updateUser_map {id : Nat} {f : DbUser → DbUser} {l : List DbUser} (h : (l.map (·.id)).Nodup) :
    updateUser id f l = l.map fun u => if u.id = id then f u else u := by
  induction l with
  | nil => rfl
  | cons u l ih =>
    simp only [List.map_cons, List.nodup_cons, List.mem_map, not_exists, not_and] at h
    unfold updateUser
    by_cases hu : u.id = id
    · rw [if_pos hu, List.map_cons, if_pos hu]
      congr 1
      symm
      conv => rhs; rw [← List.map_id l]
      apply List.map_congr_left
      intro x hx
      rw [if_neg]
      · rfl
      · intro e
        exact h.1 x hx (e.trans hu.symm)
    · rw [if_neg hu, List.map_cons, if_neg hu, ih h.2]

/-! ### The representation -/

/-- The stored form of an account. -/
def row (b : Book) (a : Account) : DbUser :=
  ⟨a.id, a.person, hash a.password a.salt, a.salt, (ownedBy a.id b.addresses).map (·.id),
    (ownedBy a.id b.cards).map (·.id)⟩

/-- The entries of a file are in order. -/
structure FileOk {α : Type} (b : Book) (l : List (Filed α)) : Prop where
  lt : ∀ e ∈ l, e.id < b.next
  nodup : (l.map (·.id)).Nodup
  owner : ∀ e ∈ l, ∀ o, e.owner = some o → b.has o

/-- The register `b` describes the database `s`. -/
structure Rep (b : Book) (s : State) : Prop where
  next : s.next = b.next
  pos : 0 < b.next
  users : s.users = b.accounts.map (row b)
  addresses : s.addresses = b.addresses.map Filed.pair
  cards : s.cards = b.cards.map Filed.pair
  accLt : ∀ a ∈ b.accounts, 0 < a.id ∧ a.id < b.next
  accNodup : (b.accounts.map (·.id)).Nodup
  addrOk : FileOk b b.addresses
  cardOk : FileOk b b.cards

/-- What fine calls keep. -/
structure Good (b : Book) : Prop where
  names : (b.accounts.map (·.person.username)).Nodup
  long : ∀ e ∈ b.cards, 4 ≤ e.val.longNum.length

theorem rep_init : Rep Book.empty State.init :=
  ⟨rfl, by decide, rfl, rfl, rfl, by simp [Book.empty], by simp [Book.empty], ⟨by simp [Book.empty], by simp [Book.empty],
    by simp [Book.empty]⟩, ⟨by simp [Book.empty], by simp [Book.empty], by simp [Book.empty]⟩⟩

theorem good_init : Good Book.empty := ⟨by simp [Book.empty], by simp [Book.empty]⟩

variable {b : Book} {s : State}

theorem FileOk.add {α : Type} {l m : List (Filed α)} (h : FileOk b l) (b' : Book) (hn : b.next ≤ b'.next)
    (hh : ∀ o, b.has o → b'.has o) (hm : ∀ e ∈ m, b.next ≤ e.id ∧ e.id < b'.next) (hd : (m.map (·.id)).Nodup)
    (ho : ∀ e ∈ m, ∀ o, e.owner = some o → b'.has o) : FileOk b' (l ++ m) := by
  refine ⟨?_, ?_, ?_⟩
  · intro e he
    rcases List.mem_append.1 he with he | he
    · have := h.lt e he
      omega
    · exact (hm e he).2
  · rw [List.map_append, List.nodup_append]
    refine ⟨h.nodup, hd, ?_⟩
    intro x hx y hy
    obtain ⟨e, he, rfl⟩ := List.mem_map.1 hx
    obtain ⟨f, hf, rfl⟩ := List.mem_map.1 hy
    have := h.lt e he
    have := (hm f hf).1
    omega
  · intro e he o hoo
    rcases List.mem_append.1 he with he | he
    · exact hh o (h.owner e he o hoo)
    · exact ho e he o hoo

theorem FileOk.same {α : Type} {l : List (Filed α)} (h : FileOk b l) (b' : Book) (hn : b.next ≤ b'.next)
    (hh : ∀ o, b.has o → b'.has o) : FileOk b' l := by
  have := h.add b' hn hh (m := []) (by simp) (by simp) (by simp)
  simpa using this

theorem FileOk.filter {α : Type} {l : List (Filed α)} (h : FileOk b l) (p : Filed α → Bool) (b' : Book)
    (hn : b.next ≤ b'.next) (hh : ∀ e ∈ l, p e = true → ∀ o, e.owner = some o → b'.has o) : FileOk b' (l.filter p) := by
  refine ⟨?_, ?_, ?_⟩
  · intro e he
    have := h.lt e ((List.mem_filter.1 he).1)
    omega
  · exact List.Nodup.sublist ((List.filter_sublist).map _) h.nodup
  · intro e he o ho
    exact hh e ((List.mem_filter.1 he).1) (List.mem_filter.1 he).2 o ho

theorem Rep.userNodup (h : Rep b s) : (s.users.map (·.id)).Nodup := by
  rw [h.users, List.map_map]
  exact h.accNodup

theorem Rep.fresh (h : Rep b s) : ¬ b.has b.next := by
  rintro ⟨a, ha, e⟩
  have := h.accLt a ha
  omega

theorem find_acc (h : Rep b s) (p : DbUser → Bool) :
    s.users.find? p = (b.accounts.find? fun a => p (row b a)).map (row b) := by
  rw [h.users, List.find?_map]
  rfl

theorem addUserIDs_row (b : Book) (a : Account) : addUserIDs (row b a) = listed b a := by
  simp [addUserIDs, row, listed, Function.comp_def]

end Verif.Users
