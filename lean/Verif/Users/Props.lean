import Verif.Users.Lemmas
namespace Verif.Users
variable [Lib]
open Lib
variable {b : Book} {s : State}

private theorem row_congr {b b' : Book} {a : Account} (h1 : (ownedBy a.id b'.addresses).map (·.id) = (ownedBy a.id b.addresses).map (·.id))
    (h2 : (ownedBy a.id b'.cards).map (·.id) = (ownedBy a.id b.cards).map (·.id)) : row b' a = row b a := by
  unfold row
  rw [h1, h2]

private theorem after_register (p : Person) (pw salt : Str) :
    b.after (.register p pw salt) = b.after (.postUser p pw salt [] []) := by
  simp [Book.after, filed]

private theorem create_rep (h : Rep b s) (p : Person) (pw salt : Str) (as : List Address) (cs : List Card) :
    Rep (b.after (.postUser p pw salt as cs)) (createUser s p (hash pw salt) salt as cs).1 ∧
      (createUser s p (hash pw salt) salt as cs).2 = .id (hex b.next) := by
  unfold createUser
  rw [createMany_eq (some b.next)]
  simp only []
  rw [createMany_eq (some b.next)]
  simp only [h.next, and_true]
  have hhas : ∀ o, b.has o → (b.after (.postUser p pw salt as cs)).has o := by
    rintro o ⟨a, ha, e⟩
    exact ⟨a, by simp [Book.after, ha], e⟩
  have hself : (b.after (.postUser p pw salt as cs)).has b.next := ⟨⟨b.next, p, pw, salt⟩, by simp [Book.after], rfl⟩
  have hnext : (b.after (.postUser p pw salt as cs)).next = b.next + 1 + cs.length + as.length := rfl
  have noOwn {α : Type} {l : List (Filed α)} (hl : FileOk b l) : ownedBy b.next l = [] := by
    apply ownedBy_none
    intro e he ho
    exact h.fresh (hl.owner e he _ ho)
  have other {α : Type} (a : Account) (ha : a ∈ b.accounts) (l : List (Filed α)) (n : Nat) (vs : List α) :
      ownedBy a.id (l ++ filed n (some b.next) vs) = ownedBy a.id l := by
    rw [ownedBy_append, ownedBy_none (l := filed _ _ _), List.append_nil]
    intro e he ho
    rw [(mem_filed he).2.2.1] at ho
    have := h.accLt a ha
    simp only [Option.some.injEq] at ho
    omega
  have own {α : Type} (n : Nat) (vs : List α) : ownedBy b.next (filed n (some b.next) vs) = filed n (some b.next) vs :=
    ownedBy_all fun e he => (mem_filed he).2.2.1
  refine ⟨rfl, ?_, ?_, ?_, ?_, ?_, ?_, ?_, ?_⟩
  · rw [hnext]; have := h.pos; omega
  · simp only [Book.after, List.map_append, List.map_cons, List.map_nil]
    rw [h.users]
    congr 1
    · apply List.map_congr_left
      intro a ha
      symm
      apply row_congr
      · show (ownedBy a.id (b.addresses ++ _)).map _ = _
        rw [other a ha]
      · show (ownedBy a.id (b.cards ++ _)).map _ = _
        rw [other a ha]
    · unfold row
      simp only [ownedBy_append, noOwn h.addrOk, noOwn h.cardOk, own, List.nil_append]
  · simp only [Book.after, List.map_append, h.addresses]
  · simp only [Book.after, List.map_append, h.cards]
  · intro a ha
    rw [hnext]
    simp only [Book.after, List.mem_append, List.mem_singleton] at ha
    rcases ha with ha | rfl
    · have := h.accLt a ha; omega
    · have := h.pos
      exact ⟨this, by show b.next < _; omega⟩
  · simp only [Book.after, List.map_append, List.nodup_append]
    refine ⟨h.accNodup, by simp, ?_⟩
    intro x hx y hy
    obtain ⟨a, ha, rfl⟩ := List.mem_map.1 hx
    simp only [List.map_cons, List.map_nil, List.mem_singleton] at hy
    have := h.accLt a ha
    omega
  · apply h.addrOk.add _ (by omega) hhas
    · intro e he
      have := mem_filed he
      omega
    · exact filed_nodup ..
    · intro e he o ho
      rw [(mem_filed he).2.2.1] at ho
      cases ho
      exact hself
  · apply h.cardOk.add _ (by omega) hhas
    · intro e he
      have := mem_filed he
      omega
    · exact filed_nodup ..
    · intro e he o ho
      rw [(mem_filed he).2.2.1] at ho
      cases ho
      exact hself

private theorem addToSet_fresh {n : Nat} {l : List Nat} (h : ∀ i ∈ l, i < n) : addToSet n l = l ++ [n] := by
  unfold addToSet
  rw [if_neg]
  simp only [List.contains_eq_mem, decide_eq_true_eq]
  intro hn
  have := h n hn
  omega

private theorem owned_lt {α : Type} {l : List (Filed α)} (h : FileOk b l) (o : Nat) :
    ∀ i ∈ (ownedBy o l).map (·.id), i < b.next := by
  intro i hi
  obtain ⟨e, he, rfl⟩ := List.mem_map.1 hi
  exact h.lt e (List.mem_filter.1 he).1

private theorem owner_has (u : Str) (o : Nat) (h : (if u = [] then none else b.ownerOf u) = some o) : b.has o := by
  split at h
  · simp at h
  · unfold Book.ownerOf at h
    simp only [Option.filter_eq_some_iff, decide_eq_true_eq] at h
    exact h.2

private theorem post_rep_address (h : Rep b s) (u : Str) (c : Address) :
    Rep (b.after (.postAddress u c)) (postAddress s u c).1 ∧ (postAddress s u c).2 = b.reply (.postAddress u c) := by
  unfold postAddress
  simp only [Book.reply, Book.after]
  by_cases hw : wellFormed u
  · simp only [if_pos hw]
    have hhas := owner_has (b := b) u
    generalize how : (if u = [] then none else b.ownerOf u) = ow at hhas ⊢
    have hb' : ∀ o, b.has o →
        ({ b with addresses := b.addresses ++ [⟨b.next, ow, c⟩], next := b.next + 1 } : Book).has o :=
      fun o ho => ho
    have fin : ∀ us : List DbUser, us = (b.accounts.map (row { b with
          addresses := b.addresses ++ [⟨b.next, ow, c⟩], next := b.next + 1 })) →
        Rep { b with addresses := b.addresses ++ [⟨b.next, ow, c⟩], next := b.next + 1 }
          { s with addresses := s.addresses ++ [(s.next, c)], next := s.next + 1, users := us } := by
      intro us hus
      refine ⟨by simp [h.next], by simp, hus, ?_, h.cards, ?_, h.accNodup, ?_, ?_⟩
      · simp [h.addresses, h.next, Filed.pair]
      · intro a ha
        have := h.accLt a ha
        exact ⟨this.1, by show a.id < b.next + 1; omega⟩
      · apply h.addrOk.add _ (by show b.next ≤ b.next + 1; omega) hb'
        · intro e he
          rw [List.mem_singleton] at he
          subst he
          exact ⟨Nat.le_refl _, Nat.lt_succ_self _⟩
        · simp
        · intro e he o ho
          rw [List.mem_singleton] at he
          subst he
          exact hhas o ho
      · exact h.cardOk.same _ (by show b.next ≤ b.next + 1; omega) hb'
    by_cases hu : u = []
    · rw [if_pos hu]
      refine ⟨?_, by rw [h.next]⟩
      apply fin s.users
      rw [h.users]
      apply List.map_congr_left
      intro a _
      symm
      apply row_congr
      · show (ownedBy a.id (b.addresses ++ _)).map _ = _
        rw [ownedBy_append, ownedBy_none (l := [_]), List.append_nil]
        simp [← how, hu]
      · rfl
    · rw [if_neg hu]
      cases hf : fromHex u with
      | none => simp [wellFormed, hu, hf] at hw
      | some id =>
        simp only []
        refine ⟨?_, by rw [h.next]⟩
        apply fin
        by_cases hh : b.has id
        · rw [updateUser_map h.userNodup, h.users, List.map_map]
          apply List.map_congr_left
          intro a ha
          simp only [Function.comp]
          have ho : ow = some id := by simp [← how, hu, Book.ownerOf, hf, hh]
          simp only [ho]
          by_cases hid : a.id = id
          · rw [if_pos (show (row b a).id = id from hid)]
            unfold row
            simp only [ownedBy_append, List.map_append]
            rw [addToSet_fresh (by rw [h.next]; exact owned_lt h.addrOk _), ownedBy_all (l := [_])]
            · simp [h.next]
            · simp [hid]
          · rw [if_neg (show ¬ (row b a).id = id from hid)]
            symm
            apply row_congr
            · show (ownedBy a.id (b.addresses ++ _)).map _ = _
              rw [ownedBy_append, ownedBy_none (l := [_]), List.append_nil]
              simp only [List.mem_singleton, forall_eq, ne_eq, Option.some.injEq]
              exact fun e => hid e.symm
            · rfl
        · rw [updateUser_none, h.users]
          · apply List.map_congr_left
            intro a _
            symm
            apply row_congr
            · show (ownedBy a.id (b.addresses ++ _)).map _ = _
              rw [ownedBy_append, ownedBy_none (l := [_]), List.append_nil]
              simp [← how, hu, Book.ownerOf, hf]
              exact fun e => e ▸ hh
            · rfl
          · intro x hx
            rw [h.users] at hx
            obtain ⟨a, ha, rfl⟩ := List.mem_map.1 hx
            exact fun e => hh ⟨a, ha, e⟩
  · simp only [if_neg hw]
    have hu : u ≠ [] := fun e => hw (.inl e)
    rw [if_neg hu]
    cases hf : fromHex u with
    | none => exact ⟨h, rfl⟩
    | some id => exact absurd (.inr (by simp [hf])) hw

private theorem post_rep_card (h : Rep b s) (u : Str) (c : Card) :
    Rep (b.after (.postCard u c)) (postCard s u c).1 ∧ (postCard s u c).2 = b.reply (.postCard u c) := by
  unfold postCard
  simp only [Book.reply, Book.after]
  by_cases hw : wellFormed u
  · simp only [if_pos hw]
    have hhas := owner_has (b := b) u
    generalize how : (if u = [] then none else b.ownerOf u) = ow at hhas ⊢
    have hb' : ∀ o, b.has o →
        ({ b with cards := b.cards ++ [⟨b.next, ow, c⟩], next := b.next + 1 } : Book).has o :=
      fun o ho => ho
    have fin : ∀ us : List DbUser, us = (b.accounts.map (row { b with
          cards := b.cards ++ [⟨b.next, ow, c⟩], next := b.next + 1 })) →
        Rep { b with cards := b.cards ++ [⟨b.next, ow, c⟩], next := b.next + 1 }
          { s with cards := s.cards ++ [(s.next, c)], next := s.next + 1, users := us } := by
      intro us hus
      refine ⟨by simp [h.next], by simp, hus, h.addresses, ?_, ?_, h.accNodup, ?_, ?_⟩
      · simp [h.cards, h.next, Filed.pair]
      · intro a ha
        have := h.accLt a ha
        exact ⟨this.1, by show a.id < b.next + 1; omega⟩
      · exact h.addrOk.same _ (by show b.next ≤ b.next + 1; omega) hb'
      · apply h.cardOk.add _ (by show b.next ≤ b.next + 1; omega) hb'
        · intro e he
          rw [List.mem_singleton] at he
          subst he
          exact ⟨Nat.le_refl _, Nat.lt_succ_self _⟩
        · simp
        · intro e he o ho
          rw [List.mem_singleton] at he
          subst he
          exact hhas o ho
    by_cases hu : u = []
    · rw [if_pos hu]
      refine ⟨?_, by rw [h.next]⟩
      apply fin s.users
      rw [h.users]
      apply List.map_congr_left
      intro a _
      symm
      apply row_congr
      · rfl
      · show (ownedBy a.id (b.cards ++ _)).map _ = _
        rw [ownedBy_append, ownedBy_none (l := [_]), List.append_nil]
        simp [← how, hu]
    · rw [if_neg hu]
      cases hf : fromHex u with
      | none => simp [wellFormed, hu, hf] at hw
      | some id =>
        simp only []
        refine ⟨?_, by rw [h.next]⟩
        apply fin
        by_cases hh : b.has id
        · rw [updateUser_map h.userNodup, h.users, List.map_map]
          apply List.map_congr_left
          intro a ha
          simp only [Function.comp]
          have ho : ow = some id := by simp [← how, hu, Book.ownerOf, hf, hh]
          simp only [ho]
          by_cases hid : a.id = id
          · rw [if_pos (show (row b a).id = id from hid)]
            unfold row
            simp only [ownedBy_append, List.map_append]
            rw [addToSet_fresh (by rw [h.next]; exact owned_lt h.cardOk _), ownedBy_all (l := [_])]
            · simp [h.next]
            · simp [hid]
          · rw [if_neg (show ¬ (row b a).id = id from hid)]
            symm
            apply row_congr
            · rfl
            · show (ownedBy a.id (b.cards ++ _)).map _ = _
              rw [ownedBy_append, ownedBy_none (l := [_]), List.append_nil]
              simp only [List.mem_singleton, forall_eq, ne_eq, Option.some.injEq]
              exact fun e => hid e.symm
        · rw [updateUser_none, h.users]
          · apply List.map_congr_left
            intro a _
            symm
            apply row_congr
            · rfl
            · show (ownedBy a.id (b.cards ++ _)).map _ = _
              rw [ownedBy_append, ownedBy_none (l := [_]), List.append_nil]
              simp [← how, hu, Book.ownerOf, hf]
              exact fun e => e ▸ hh
          · intro x hx
            rw [h.users] at hx
            obtain ⟨a, ha, rfl⟩ := List.mem_map.1 hx
            exact fun e => hh ⟨a, ha, e⟩
  · simp only [if_neg hw]
    have hu : u ≠ [] := fun e => hw (.inl e)
    rw [if_neg hu]
    cases hf : fromHex u with
    | none => exact ⟨h, rfl⟩
    | some id => exact absurd (.inr (by simp [hf])) hw

private theorem find_unique {l : List Account} (h : (l.map (·.id)).Nodup) {id : Nat} {a : Account} (ha : a ∈ l)
    (e : a.id = id) : l.find? (fun a => a.id = id) = some a := by
  induction l with
  | nil => simp at ha
  | cons x l ih =>
    simp only [List.map_cons, List.nodup_cons, List.mem_map, not_exists, not_and] at h
    rw [List.find?_cons]
    by_cases hx : x.id = id
    · simp only [hx, decide_true]
      rcases List.mem_cons.1 ha with h1 | h1
      · rw [h1]
      · exact absurd (e.trans hx.symm) (h.1 a h1)
    · simp only [hx, decide_false]
      rcases List.mem_cons.1 ha with h1 | h1
      · exact absurd (h1 ▸ e) hx
      · exact ih h.2 h1

private theorem owned_filter_owner {α : Type} {l : List (Filed α)} {o id : Nat} (h : o ≠ id) :
    ownedBy o (l.filter fun e => e.owner ≠ some id) = ownedBy o l := by
  unfold ownedBy
  rw [List.filter_filter]
  apply List.filter_congr
  intro e _
  by_cases he : e.owner = some o
  · simp [he, h]
  · simp [he]

private theorem delete_user_rep (h : Rep b s) (hx : Str) :
    Rep (b.after (.deleteUser hx)) (deleteUser s hx).1 ∧ (deleteUser s hx).2 = b.reply (.deleteUser hx) := by
  unfold deleteUser
  simp only [Book.reply, Book.after]
  cases hf : fromHex hx with
  | none => exact ⟨h, rfl⟩
  | some id =>
    simp only [Option.isSome_some, if_true]
    -- the addresses and cards of the user
    have hown : ∀ o : Nat, ¬ b.has o → ownedBy o b.addresses = [] ∧ ownedBy o b.cards = [] := by
      intro o ho
      exact ⟨ownedBy_none fun e he h' => ho (h.addrOk.owner e he _ h'), ownedBy_none fun e he h' => ho (h.cardOk.owner e he _ h')⟩
    have key : addUserIDs ((s.users.find? fun u => u.id = id).getD DbUser.zero) =
        (⟨(addUserIDs ((s.users.find? fun u => u.id = id).getD DbUser.zero)).id,
          (addUserIDs ((s.users.find? fun u => u.id = id).getD DbUser.zero)).person,
          (ownedBy id b.addresses).map fun e => (hex e.id, zeroAddress),
          (ownedBy id b.cards).map fun e => (hex e.id, zeroCard)⟩ : User) := by
      rw [find_acc h]
      by_cases hh : b.has id
      · obtain ⟨a, ha, e⟩ := hh
        have := find_unique h.accNodup ha e
        rw [show b.accounts.find? (fun a => decide ((row b a).id = id)) = some a from this]
        simp only [Option.map_some, Option.getD_some]
        rw [← e]
        simp [addUserIDs, row]
      · have : b.accounts.find? (fun a => decide ((row b a).id = id)) = none := by
          rw [List.find?_eq_none]
          intro a ha
          simp only [decide_eq_true_eq]
          exact fun e => hh ⟨a, ha, e⟩
        rw [this]
        obtain ⟨h1, h2⟩ := hown id hh
        simp [addUserIDs, DbUser.zero, h1, h2]
    rw [key]
    simp only [List.map_map]
    have e1 : (ownedBy id b.addresses).map ((fun x => x.1) ∘ fun e => (hex e.id, zeroAddress)) =
        ((ownedBy id b.addresses).map (·.id)).map hex := by simp
    have e2 : (ownedBy id b.cards).map ((fun x => x.1) ∘ fun e => (hex e.id, zeroCard)) =
        ((ownedBy id b.cards).map (·.id)).map hex := by simp
    rw [e1, e2, hexToObjectIds_hex, hexToObjectIds_hex]
    simp only [and_true]
    rw [h.addresses, h.cards, removeIds_owned h.addrOk.nodup, removeIds_owned h.cardOk.nodup, h.users]
    have has' : ∀ {α : Type} (l : List (Filed α)) (_ : FileOk b l), ∀ e ∈ l, decide (e.owner ≠ some id) = true →
        ∀ o, e.owner = some o →
        ({ b with accounts := b.accounts.filter fun a => a.id ≠ id
                  addresses := b.addresses.filter fun e => e.owner ≠ some id
                  cards := b.cards.filter fun e => e.owner ≠ some id } : Book).has o := by
      intro α l hl e he hne o ho
      obtain ⟨a, ha, rfl⟩ := hl.owner e he o ho
      refine ⟨a, ?_, rfl⟩
      simp only [List.mem_filter, ha, true_and, decide_eq_true_eq]
      simp only [decide_eq_true_eq, ho] at hne
      exact fun e => hne (by rw [e])
    refine ⟨h.next, h.pos, ?_, rfl, rfl, ?_, ?_, ?_, ?_⟩
    · rw [List.filter_map]
      apply List.map_congr_left
      intro a ha
      have hne : a.id ≠ id := of_decide_eq_true (List.mem_filter.1 ha).2
      symm
      apply row_congr
      · show (ownedBy a.id (b.addresses.filter _)).map _ = _
        rw [owned_filter_owner hne]
      · show (ownedBy a.id (b.cards.filter _)).map _ = _
        rw [owned_filter_owner hne]
    · intro a ha
      exact h.accLt a (List.mem_filter.1 ha).1
    · exact List.Nodup.sublist (List.filter_sublist.map _) h.accNodup
    · exact h.addrOk.filter _ _ (Nat.le_refl _) (has' _ h.addrOk)
    · exact h.cardOk.filter _ _ (Nat.le_refl _) (has' _ h.cardOk)

private theorem owned_filter_id {α : Type} (l : List (Filed α)) (o id : Nat) :
    (ownedBy o (l.filter fun e => e.id ≠ id)).map (·.id) = ((ownedBy o l).map (·.id)).filter (· ≠ id) := by
  unfold ownedBy
  rw [List.filter_map, List.filter_filter, List.filter_filter]
  congr 1
  apply List.filter_congr
  intro e _
  simp [Bool.and_comm]

private theorem pull (id : Nat) (l : List Nat) : (if l.contains id then l.filter (· ≠ id) else l) = l.filter (· ≠ id) := by
  split
  · rfl
  · next h =>
    symm
    rw [List.filter_eq_self]
    intro x hx
    simp only [decide_eq_true_eq]
    rintro rfl
    simp [hx] at h

private theorem pull_address (u : DbUser) (id : Nat) :
    (if u.addresses.contains id then { u with addresses := u.addresses.filter (· ≠ id) } else u) =
      { u with addresses := u.addresses.filter (· ≠ id) } := by
  have := pull id u.addresses
  split
  · rfl
  · next hc =>
    rw [if_neg hc] at this
    rw [← this]

private theorem pull_card (u : DbUser) (id : Nat) :
    (if u.cards.contains id then { u with cards := u.cards.filter (· ≠ id) } else u) =
      { u with cards := u.cards.filter (· ≠ id) } := by
  have := pull id u.cards
  split
  · rfl
  · next hc =>
    rw [if_neg hc] at this
    rw [← this]

private theorem delete_address_rep (h : Rep b s) (hx : Str) :
    Rep (b.after (.deleteAddress hx)) (deleteAddress s hx).1 ∧ (deleteAddress s hx).2 = b.reply (.deleteAddress hx) := by
  unfold deleteAddress
  simp only [Book.reply, Book.after]
  cases hf : fromHex hx with
  | none => exact ⟨h, rfl⟩
  | some id =>
    simp only [Option.isSome_some, if_true, and_true]
    rw [h.addresses, removeIds_one, h.users, List.map_map]
    refine ⟨h.next, h.pos, ?_, rfl, h.cards, h.accLt, h.accNodup, ?_, ?_⟩
    · apply List.map_congr_left
      intro a _
      simp only [Function.comp]
      rw [pull_address]
      simp only [row, owned_filter_id]
    · exact h.addrOk.filter _ _ (Nat.le_refl _) fun e he _ o ho => h.addrOk.owner e he o ho
    · exact h.cardOk.same _ (Nat.le_refl _) fun o ho => ho

private theorem delete_card_rep (h : Rep b s) (hx : Str) :
    Rep (b.after (.deleteCard hx)) (deleteCard s hx).1 ∧ (deleteCard s hx).2 = b.reply (.deleteCard hx) := by
  unfold deleteCard
  simp only [Book.reply, Book.after]
  cases hf : fromHex hx with
  | none => exact ⟨h, rfl⟩
  | some id =>
    simp only [Option.isSome_some, if_true, and_true]
    rw [h.cards, removeIds_one, h.users, List.map_map]
    refine ⟨h.next, h.pos, ?_, h.addresses, rfl, h.accLt, h.accNodup, ?_, ?_⟩
    · apply List.map_congr_left
      intro a _
      simp only [Function.comp]
      rw [pull_card]
      simp only [row, owned_filter_id]
    · exact h.addrOk.same _ (Nat.le_refl _) fun o ho => ho
    · exact h.cardOk.filter _ _ (Nat.le_refl _) fun e he _ o ho => h.cardOk.owner e he o ho

theorem call_rep (h : Rep b s) (o : Op) : Rep (b.after o) (call s o).1 := by
  cases o with
  | register p pw salt => rw [after_register]; exact (create_rep h p pw salt [] []).1
  | postUser p pw salt as cs => exact (create_rep h p pw salt as cs).1
  | postAddress u a => exact (post_rep_address h u a).1
  | postCard u a => exact (post_rep_card h u a).1
  | deleteUser x => exact (delete_user_rep h x).1
  | deleteAddress x => exact (delete_address_rep h x).1
  | deleteCard x => exact (delete_card_rep h x).1
  | _ => exact h

private theorem lookup_one {β : Type} {l : List β} {f : β → Nat} (h : (l.map f).Nodup) {n : Nat} {x : β} (hx : x ∈ l)
    (e : f x = n) : l.find? (fun y => f y = n) = some x := by
  induction l with
  | nil => simp at hx
  | cons y l ih =>
    simp only [List.map_cons, List.nodup_cons, List.mem_map, not_exists, not_and] at h
    rw [List.find?_cons]
    by_cases hy : f y = n
    · simp only [hy, decide_true]
      rcases List.mem_cons.1 hx with h1 | h1
      · rw [h1]
      · exact absurd (e.trans hy.symm) (h.1 x h1)
    · simp only [hy, decide_false]
      rcases List.mem_cons.1 hx with h1 | h1
      · exact absurd (h1 ▸ e) hy
      · exact ih h.2 h1

private theorem find_name {l : List Account} (h : (l.map (·.person.username)).Nodup) (u p : Str) :
    l.find? (fun a => a.person.username = u ∧ a.accepts p) =
      (l.find? fun a => a.person.username = u).filter fun a => a.accepts p := by
  induction l with
  | nil => rfl
  | cons a l ih =>
    simp only [List.map_cons, List.nodup_cons, List.mem_map, not_exists, not_and] at h
    rw [List.find?_cons, List.find?_cons]
    by_cases ha : a.person.username = u
    · by_cases hp : a.accepts p
      · simp [ha, hp, Option.filter]
      · simp only [ha, hp, and_false, decide_false, decide_true, Option.filter_some, Bool.false_eq_true, if_false]
        rw [List.find?_eq_none]
        intro x hx
        have := h.1 x hx
        simp only [decide_eq_true_eq, not_and]
        intro e
        exact absurd (e.trans ha.symm) this
    · simp only [ha, false_and, decide_false]
      exact ih h.2

theorem login_row (h : Rep b s) {u p : Str} :
    login s u p = match b.accounts.find? (fun a => a.person.username = u) with
      | none => .error
      | some a => if a.accepts p then
          match maskCCs ((ownedBy a.id b.cards).map Filed.shown) with
          | none => .panic
          | some cs => .user ⟨hex a.id, a.person, (ownedBy a.id b.addresses).map Filed.shown, cs⟩
        else .error := by
  unfold login
  rw [find_acc h]
  have : b.accounts.find? (fun a => decide ((row b a).person.username = u)) = b.accounts.find? (fun a => a.person.username = u) :=
    rfl
  rw [this]
  cases hf : b.accounts.find? (fun a => a.person.username = u) with
  | none =>
    simp only [Option.map_none, Option.getD_none]
    rw [if_pos]
    exact fun e => hash_ne _ _ e.symm
  | some a =>
    simp only [Option.map_some, Option.getD_some]
    by_cases ha : a.accepts p
    · rw [if_neg (by simp only [row, ne_eq, Decidable.not_not]; exact ha.symm), if_pos ha, addUserIDs_row]
      simp only [listed, List.map_map]
      have e1 : (ownedBy a.id b.addresses).map ((fun x => x.1) ∘ fun e => (hex e.id, zeroAddress)) =
          ((ownedBy a.id b.addresses).map (·.id)).map hex := by simp
      have e2 : (ownedBy a.id b.cards).map ((fun x => x.1) ∘ fun e => (hex e.id, zeroCard)) =
          ((ownedBy a.id b.cards).map (·.id)).map hex := by simp
      rw [e1, e2, h.addresses, h.cards, getByIds_owned h.addrOk.nodup, getByIds_owned h.cardOk.nodup]
      simp only []
      cases maskCCs ((ownedBy a.id b.cards).map Filed.shown) <;> rfl
    · rw [if_pos (by simp only [row, ne_eq]; exact fun e => ha e.symm), if_neg ha]

theorem call_reply (h : Rep b s) (g : Good b) (o : Op) (hf : b.fine o) : (call s o).2 = b.reply o := by
  cases o with
  | login u p =>
    show login s u p = _
    rw [login_row h]
    simp only [Book.reply]
    rw [find_name g.names]
    cases b.accounts.find? (fun a => a.person.username = u) with
    | none => rfl
    | some a =>
      simp only [Option.filter_some]
      by_cases ha : a.accepts p
      · simp only [ha, if_true, decide_true]
        rw [maskCCs_long (ownedBy a.id b.cards) (fun e he => g.long e (List.mem_filter.1 he).1)]
        rfl
      · simp [ha]
  | register p pw salt => exact (create_rep h p pw salt [] []).2
  | postUser p pw salt as cs => exact (create_rep h p pw salt as cs).2
  | postAddress u a => exact (post_rep_address h u a).2
  | postCard u a => exact (post_rep_card h u a).2
  | deleteUser x => exact (delete_user_rep h x).2
  | deleteAddress x => exact (delete_address_rep h x).2
  | deleteCard x => exact (delete_card_rep h x).2
  | deleteOther => rfl
  | getUsers x =>
    show getUsers s x = _
    simp only [getUsers, Book.reply, lookup]
    by_cases hx : x = []
    · rw [if_pos hx, if_pos hx, h.users]
      simp [addUserIDs_row]
    · rw [if_neg hx, if_neg hx]
      cases hn : fromHex x with
      | none => rfl
      | some n =>
        obtain ⟨a, ha, e⟩ := hf n hx hn
        simp only [Option.map_some, Option.getD_some]
        rw [filter_id h.accNodup, lookup_one h.accNodup ha e, find_acc h]
        rw [show b.accounts.find? (fun a => decide ((row b a).id = n)) = some a from lookup_one h.accNodup ha e]
        simp [addUserIDs_row]
  | getAddresses x =>
    show getAddresses s x = _
    simp only [getAddresses, Book.reply, lookup]
    by_cases hx : x = []
    · rw [if_pos hx, if_pos hx, h.addresses]
      simp [getAll, Filed.pair, Filed.shown, Function.comp_def]
    · rw [if_neg hx, if_neg hx]
      unfold getById
      cases hn : fromHex x with
      | none => rfl
      | some n =>
        obtain ⟨a, ha, e⟩ := hf n hx hn
        simp only [Option.map_some, Option.getD_some]
        rw [filter_id h.addrOk.nodup, h.addresses, find_pair, lookup_one h.addrOk.nodup ha e]
        simp [Filed.pair, Filed.shown]
  | getCards x =>
    show getCards s x = _
    simp only [getCards, Book.reply, lookup]
    by_cases hx : x = []
    · rw [if_pos hx, if_pos hx, h.cards]
      simp [getAll, Filed.pair, Filed.shown, Function.comp_def]
    · rw [if_neg hx, if_neg hx]
      unfold getById
      cases hn : fromHex x with
      | none => rfl
      | some n =>
        obtain ⟨a, ha, e⟩ := hf n hx hn
        simp only [Option.map_some, Option.getD_some]
        rw [filter_id h.cardOk.nodup, h.cards, find_pair, lookup_one h.cardOk.nodup ha e]
        simp [Filed.pair, Filed.shown]

private theorem good_name {p : Person} {pw salt : Str} {n : Nat} (g : Good b)
    (h : ∀ a ∈ b.accounts, a.person.username ≠ p.username) :
    ((b.accounts ++ [(⟨n, p, pw, salt⟩ : Account)]).map (·.person.username)).Nodup := by
  rw [List.map_append, List.nodup_append]
  refine ⟨g.names, by simp, ?_⟩
  intro x hx y hy
  obtain ⟨a, ha, rfl⟩ := List.mem_map.1 hx
  simp only [List.map_cons, List.map_nil, List.mem_singleton] at hy
  rw [hy]
  exact h a ha

private theorem good_step (g : Good b) (o : Op) (hf : b.fine o) : Good (b.after o) := by
  cases o with
  | register p pw salt => exact ⟨good_name g hf, g.long⟩
  | postUser p pw salt as cs =>
    refine ⟨good_name g hf.1, ?_⟩
    intro e he
    simp only [Book.after, List.mem_append] at he
    rcases he with he | he
    · exact g.long e he
    · exact hf.2 _ (mem_filed he).2.2.2
  | postAddress u a =>
    simp only [Book.after]
    split
    · exact ⟨g.names, g.long⟩
    · exact g
  | postCard u c =>
    simp only [Book.after]
    split
    · refine ⟨g.names, ?_⟩
      intro e he
      simp only [List.mem_append, List.mem_singleton] at he
      rcases he with he | rfl
      · exact g.long e he
      · exact hf
    · exact g
  | deleteUser x =>
    simp only [Book.after]
    split
    · exact g
    · exact ⟨List.Nodup.sublist (List.filter_sublist.map _) g.names, fun e he => g.long e (List.mem_filter.1 he).1⟩
  | deleteAddress x =>
    simp only [Book.after]
    split
    · exact g
    · exact ⟨g.names, g.long⟩
  | deleteCard x =>
    simp only [Book.after]
    split
    · exact g
    · exact ⟨g.names, fun e he => g.long e (List.mem_filter.1 he).1⟩
  | _ => exact g

theorem calls_reply (os : List Op) (h : Rep b s) (g : Good b) (hf : b.allFine os) :
    (calls s os).2 = b.replies os := by
  induction os generalizing b s with
  | nil => rfl
  | cons o os ih =>
    simp only [calls, Book.replies]
    rw [call_reply h g o hf.1, ih (call_rep h o) (good_step g o hf.1) hf.2]

theorem calls_rep (os : List Op) (h : Rep b s) : Rep (b.history os) (calls s os).1 := by
  induction os generalizing b s with
  | nil => exact h
  | cons o os ih => exact ih (call_rep h o)

/-- C78: whatever calls are made one after the other, every call gets the reply that the documentation promises: users
log in with the username and password they registered with, and then see their own addresses and cards, which are
those posted for them and not deleted since, with masked card numbers; deleting a user deletes the addresses and
cards.  Missing from the full property: usernames registered twice, card numbers of less than four digits and
look-ups of identifiers that do not exist, where the code does something else (the `_refuted` theorems). -/
theorem C78_users_partial (os : List Op) (h : Book.empty.allFine os) :
    (calls State.init os).2 = Book.empty.replies os :=
  calls_reply os rep_init good_init h

/-- C78: in every history, also the others, a login gives access only to an account with that username and to a
password with the same salted hash as the registered one. -/
theorem C78_login_sound (os : List Op) (username password : Str) (u : User)
    (h : login (calls State.init os).1 username password = .user u) :
    ∃ a ∈ (Book.empty.history os).accounts, a.person.username = username ∧ a.accepts password ∧
      u.id = hex a.id ∧ u.person = a.person := by
  rw [login_row (calls_rep os rep_init)] at h
  split at h
  · simp at h
  · next a hf =>
    split at h
    · next ha =>
      split at h
      · simp at h
      · cases h
        exact ⟨a, List.mem_of_find?_eq_some hf, by simpa using List.find?_some hf, ha, rfl, rfl⟩
    · simp at h

private theorem maskCCs_hides {l r : List (Str × Card)} (h : maskCCs l = some r) :
    ∀ e ∈ r, ∃ x ∈ l, x.1 = e.1 ∧ e.2.longNum = masked x.2.longNum ∧ 4 ≤ x.2.longNum.length := by
  induction l generalizing r with
  | nil =>
    cases h
    simp
  | cons c l ih =>
    obtain ⟨hh, c⟩ := c
    simp only [maskCCs] at h
    split at h
    · next c' r' h1 h2 =>
      cases h
      intro e he
      rcases List.mem_cons.1 he with rfl | he
      · refine ⟨_, .head _, rfl, ?_⟩
        have hl : 4 ≤ c.longNum.length := by
          unfold maskCC at h1
          split at h1
          · simp at h1
          · omega
        rw [maskCC_long hl] at h1
        cases h1
        exact ⟨rfl, hl⟩
      · obtain ⟨x, hx, hx'⟩ := ih h2 e he
        exact ⟨x, .tail _ hx, hx'⟩
    · simp at h

/-- C78: in every history, whatever cards a login returns belong to the account, and of each card number only the last
four digits are readable. -/
theorem C78_cards_hidden (os : List Op) (username password : Str) (u : User)
    (h : login (calls State.init os).1 username password = .user u) :
    ∀ c ∈ u.cards, ∃ e ∈ (Book.empty.history os).cards, ∃ n, u.id = hex n ∧ e.owner = some n ∧ hex e.id = c.1 ∧
      c.2.longNum.length = e.val.longNum.length ∧
      ∀ (i : Nat) (ch : Char), c.2.longNum[i]? = some ch →
        (i + 4 < e.val.longNum.length → ch = '*') ∧ (e.val.longNum.length ≤ i + 4 → e.val.longNum[i]? = some ch) := by
  rw [login_row (calls_rep os rep_init)] at h
  split at h
  · simp at h
  · next a hf =>
    split at h
    · split at h
      · simp at h
      · next cs hm =>
        cases h
        intro c hc
        obtain ⟨x, hx, e1, e2, _⟩ := maskCCs_hides hm c hc
        obtain ⟨e, he, rfl⟩ := List.mem_map.1 hx
        change c.2.longNum = masked e.val.longNum at e2
        obtain ⟨he, ho⟩ := List.mem_filter.1 he
        refine ⟨e, he, a.id, rfl, by simpa using ho, e1, ?_, ?_⟩
        · rw [e2]
          simp [masked]
        · intro i ch hch
          rw [e2] at hch
          simp only [masked, List.getElem?_mapIdx, Option.map_eq_some_iff] at hch
          obtain ⟨x, hx, rfl⟩ := hch
          refine ⟨fun hi => if_pos hi, fun hi => ?_⟩
          have : ¬ i + 4 < e.val.longNum.length := by omega
          simp only [this, if_false]
          exact hx
    · simp at h

theorem history_append (os os' : List Op) : b.history (os ++ os') = (b.history os).history os' :=
  List.foldl_append ..

theorem calls_append (os os' : List Op) : (calls s (os ++ os')).1 = (calls (calls s os).1 os').1 := by
  induction os generalizing s with
  | nil => rfl
  | cons o os ih => exact ih

private theorem allFine_append {os os' : List Op} (h : b.allFine (os ++ os')) :
    b.allFine os ∧ (b.history os).allFine os' := by
  induction os generalizing b with
  | nil => exact ⟨trivial, h⟩
  | cons o os ih =>
    obtain ⟨h1, h2⟩ := ih h.2
    exact ⟨⟨h.1, h1⟩, h2⟩

private theorem account_stays (os : List Op) (a : Account) (ha : a ∈ b.accounts)
    (h : ∀ o ∈ os, ∀ x, o = .deleteUser x → fromHex x ≠ some a.id) : a ∈ (b.history os).accounts := by
  induction os generalizing b with
  | nil => exact ha
  | cons o os ih =>
    apply ih _ fun o ho => h o (.tail _ ho)
    cases o with
    | deleteUser x =>
      simp only [Book.after]
      split
      · exact ha
      · next id hid =>
        rw [List.mem_filter]
        refine ⟨ha, ?_⟩
        have := h _ (.head _) x rfl
        rw [hid] at this
        simp only [ne_eq, Option.some.injEq] at this
        simp only [decide_eq_true_eq]
        exact fun e => this e.symm
    | register p pw salt => simp [Book.after, ha]
    | postUser p pw salt as cs => simp [Book.after, ha]
    | postAddress u a' => simp only [Book.after]; split <;> exact ha
    | postCard u a' => simp only [Book.after]; split <;> exact ha
    | deleteAddress u => simp only [Book.after]; split <;> exact ha
    | deleteCard u => simp only [Book.after]; split <;> exact ha
    | _ => exact ha

/-- C79: a user who registers with a new username can log in ever after, until the account is deleted, with the same
password, and gets the identifier that `Register` returned.  Missing from the full property: the calls that C78 leaves
out. -/
theorem C79_login_partial (os os' : List Op) (p : Person) (pw salt : Str)
    (h : Book.empty.allFine (os ++ .register p pw salt :: os')) :
    ∃ id, (call (calls State.init os).1 (.register p pw salt)).2 = .id (hex id) ∧
      ((∀ o ∈ os', ∀ x, o = .deleteUser x → fromHex x ≠ some id) →
        ∃ u, login (calls State.init (os ++ .register p pw salt :: os')).1 p.username pw = .user u ∧
          u.id = hex id ∧ u.person = p) := by
  obtain ⟨h1, h2, h3⟩ := allFine_append h
  have g : ∀ (os : List Op) {b : Book}, Good b → b.allFine os → Good (b.history os) := by
    intro os
    induction os with
    | nil => exact fun g _ => g
    | cons o os ih => exact fun g h => ih (good_step g o h.1) h.2
  refine ⟨(Book.empty.history os).next, ?_, ?_⟩
  · exact call_reply (calls_rep os rep_init) (g os good_init h1) (.register p pw salt) h2
  · intro hd
    have hr := calls_rep (os ++ .register p pw salt :: os') rep_init
    have hg := g (os ++ .register p pw salt :: os') good_init h
    have := call_reply hr hg (.login p.username pw) trivial
    have ha : (⟨(Book.empty.history os).next, p, pw, salt⟩ : Account) ∈
        (Book.empty.history (os ++ .register p pw salt :: os')).accounts := by
      rw [history_append]
      show _ ∈ (Book.history _ os').accounts
      apply account_stays _ _ _ hd
      simp [Book.after]
    simp only [call, Book.reply] at this
    rw [find_name hg.names] at this
    have key : (Book.empty.history (os ++ .register p pw salt :: os')).accounts.find?
        (fun a => a.person.username = p.username) = some ⟨(Book.empty.history os).next, p, pw, salt⟩ := by
      have hn := hg.names
      revert ha hn
      generalize (Book.empty.history (os ++ .register p pw salt :: os')).accounts = l
      intro ha hn
      induction l with
      | nil => simp at ha
      | cons x l ih =>
        simp only [List.map_cons, List.nodup_cons, List.mem_map, not_exists, not_and] at hn
        rw [List.find?_cons]
        by_cases hx : x.person.username = p.username
        · simp only [hx, decide_true]
          rcases List.mem_cons.1 ha with h1 | h1
          · rw [h1]
          · exact absurd hx.symm (hn.1 _ h1)
        · simp only [hx, decide_false]
          rcases List.mem_cons.1 ha with h1 | h1
          · rw [← h1] at hx
            exact absurd rfl hx
          · exact ih h1 hn.2
    rw [key] at this
    simp only [Option.filter_some, Account.accepts, decide_true, if_true] at this
    exact ⟨_, this, rfl, rfl⟩

/-- C79 refuted: a username can be registered again.  `Register` reports success, but unless the new password fits the
first account too, nobody can ever log in to the new one. -/
theorem C79_duplicate_refuted (os : List Op) (p : Person) (pw salt : Str) (a : Account)
    (ha : (Book.empty.history os).accounts.find? (fun a => a.person.username = p.username) = some a)
    (hp : ¬ a.accepts pw) :
    (∃ id, (call (calls State.init os).1 (.register p pw salt)).2 = .id id) ∧
      login (calls State.init (os ++ [.register p pw salt])).1 p.username pw = .error := by
  refine ⟨⟨_, rfl⟩, ?_⟩
  rw [login_row (calls_rep _ rep_init), history_append]
  simp only [Book.history, List.foldl_cons, List.foldl_nil, Book.after, List.find?_append]
  simp only [Book.history] at ha
  rw [ha]
  simp [hp]

/-- C79 refuted: once a card number of less than four digits has been posted for a user, which succeeds, that user's
login panics, with the right password. -/
theorem C79_short_card_refuted (os : List Op) (c : Card) (hc : c.longNum.length < 4) (a : Account) (pw : Str)
    (ha : (Book.empty.history os).accounts.find? (fun x => x.person.username = a.person.username) = some a)
    (hp : a.accepts pw) (hne : hex a.id ≠ []) :
    (∃ id, (call (calls State.init os).1 (.postCard (hex a.id) c)).2 = .id id) ∧
      login (calls State.init (os ++ [.postCard (hex a.id) c])).1 a.person.username pw = .panic := by
  have hh : (Book.empty.history os).has a.id := ⟨a, List.mem_of_find?_eq_some ha, rfl⟩
  have hw : wellFormed (hex a.id) := .inr (by simp [from_hex])
  refine ⟨⟨hex (Book.empty.history os).next, ?_⟩, ?_⟩
  · show (postCard _ _ _).2 = _
    rw [(post_rep_card (calls_rep os rep_init) (hex a.id) c).2]
    simp [Book.reply, hw]
  · rw [login_row (calls_rep _ rep_init), history_append]
    simp only [Book.history, List.foldl_cons, List.foldl_nil, Book.after, if_pos hw, if_neg hne]
    simp only [Book.history] at ha hh
    rw [ha]
    simp only [if_pos hp]
    have ho : (List.foldl Book.after Book.empty os).ownerOf (hex a.id) = some a.id := by
      simp [Book.ownerOf, from_hex, hh]
    rw [ho, ownedBy_append, ownedBy_all (l := [_]) (by simp)]
    have : ∀ l : List (Str × Card), ∀ x : Str × Card, x.2.longNum.length < 4 → maskCCs (l ++ [x]) = none := by
      intro l x hx
      induction l with
      | nil => simp [maskCCs, maskCC, hx]
      | cons y l ih =>
        simp only [List.cons_append, maskCCs, ih]
        split <;> simp_all
    rw [List.map_append, List.map_cons, List.map_nil, this _ _ hc]

/-- C78 refuted: looking up an identifier that does not exist gives no error and no empty list but one blank user (or
address, or card).  A caller that checks for an empty list, such as `NewOrder`, never notices. -/
theorem C78_unknown_refuted (os : List Op) (n : Nat) (hn : hex n ≠ []) :
    ((¬ (Book.empty.history os).has n) → getUsers (calls State.init os).1 (hex n) =
      .users [⟨hex 0, ⟨[], [], [], []⟩, [], []⟩]) ∧
    ((∀ e ∈ (Book.empty.history os).addresses, e.id ≠ n) → getAddresses (calls State.init os).1 (hex n) =
      .addresses [(hex 0, ⟨[], [], [], [], []⟩)]) ∧
    ((∀ e ∈ (Book.empty.history os).cards, e.id ≠ n) → getCards (calls State.init os).1 (hex n) =
      .cards [(hex 0, ⟨[], [], []⟩)]) := by
  have hr := calls_rep os rep_init
  refine ⟨fun h => ?_, fun h => ?_, fun h => ?_⟩
  · unfold getUsers
    rw [if_neg hn, from_hex]
    simp only []
    rw [find_acc hr]
    rw [show (Book.empty.history os).accounts.find? (fun a => decide ((row (Book.empty.history os) a).id = n)) = none from by
      rw [List.find?_eq_none]
      intro a ha
      simp only [decide_eq_true_eq]
      exact fun e => h ⟨a, ha, e⟩]
    rfl
  · unfold getAddresses getById
    rw [if_neg hn, from_hex]
    simp only []
    rw [hr.addresses, find_pair]
    rw [show (Book.empty.history os).addresses.find? (fun e => e.id = n) = none from by
      rw [List.find?_eq_none]
      intro a ha
      simpa using h a ha]
    rfl
  · unfold getCards getById
    rw [if_neg hn, from_hex]
    simp only []
    rw [hr.cards, find_pair]
    rw [show (Book.empty.history os).cards.find? (fun e => e.id = n) = none from by
      rw [List.find?_eq_none]
      intro a ha
      simpa using h a ha]
    rfl

end Verif.Users
