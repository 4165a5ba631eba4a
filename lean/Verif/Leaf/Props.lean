import Verif.Leaf.Model
import Verif.Trains.Concurrent
import Verif.NoSQL.UpdateProps
/-
Theorems about the leaf example (C146).
-/
set_option linter.unusedSectionVars false
namespace Verif.Leaf
open Verif.NoSQL (Name Doc Value IntKind Host Ret findMany findLoop firstMatch insertOne updateOne parseFilter parseUpdate kId Filter)
open Verif.Trains (Prog orErr works Together)
variable {F : Type} [Host F]

/-- The object as it is stored: the identifier that the database adds, and the count. -/
def stored (x : Nat × Int) : Doc F :=
  [(kId, .oid x.1), (fId, .int .int64 7), (fName, .str ['M', 'y', 'O', 'b', 'j', 'e', 'c', 't']), (fCount, .int .int32 x.2), (fProps, .null)]

private theorem parsed : ∃ f : Filter F, parseFilter filter = some f ∧ ∀ x, f.eval (.doc (stored x)) = some true := ⟨_, rfl, fun _ => rfl⟩

theorem find_stored (l : List (Nat × Int)) : findMany (l.map (stored (F := F))) filter = .ok (l.map stored) := by
  obtain ⟨f, h1, h2⟩ := parsed (F := F)
  unfold findMany
  rw [h1]
  show findLoop f _ = _
  induction l with
  | nil => rfl
  | cons x l ih => rw [List.map_cons, findLoop, h2]; simp [ih]

theorem insert_stored (l : List (Nat × Int)) (newId : Nat) :
    insertOne (l.map (stored (F := F))) (.obj (some myObject)) newId = ((l ++ [(newId, 0)]).map stored, .ok ()) := by
  rw [List.map_append]; rfl

theorem update_stored (o : Nat) (n : Int) (l : List (Nat × Int)) :
    (updateOne (((o, n) :: l).map (stored (F := F))) filter update).1 = ((o, IntKind.int32.wrap (n + 1)) :: l).map stored := rfl

theorem count_stored (x : Nat × Int) : countOf (stored (F := F) x) = x.2 := rfl
private theorem count_mine : countOf (myObject (F := F)) = 0 := rfl

/-- The number of calls as the 32 bits of the stored count show it. -/
def shown (n : Nat) : Int := IntKind.int32.wrap n

theorem shown_succ (n : Nat) : IntKind.int32.wrap (shown n + 1) = shown (n + 1) := by
  unfold shown IntKind.wrap
  generalize (2 : Int) ^ (IntKind.int32.bits - 1) = h
  generalize (2 : Int) ^ IntKind.int32.bits = M
  rw [show ((n : Int) + h) % M - h + 1 + h = (n + h) % M + 1 by omega, Int.emod_add_emod, show (n : Int) + h + 1 = ((n + 1 : Nat) : Int) + h by omega]

theorem shown_small (n : Nat) (h : n < 2 ^ 31) : shown n = n := by
  refine NoSQL.C41_wrap .int32 n ⟨?_, ?_⟩
  · show -(2 ^ 31 : Int) ≤ n
    omega
  · show (n : Int) < 2 ^ 31
    omega

/-! ### One call after the other -/

/-- The calls one after the other: what they return, and the collection. -/
def inTurn (s : List (Doc F)) : List Nat → List (Ret Int) × List (Doc F)
  | [] => ([], s)
  | id :: ids => (((helloIntP id).run works s).2 :: (inTurn ((helloIntP id).run works s).1 ids).1, (inTurn ((helloIntP id).run works s).1 ids).2)

private theorem run_empty (id : Nat) : (helloIntP (F := F) id).run works [] = ([stored (id, shown 1)], .ok (shown 0)) := rfl

private theorem run_stored (id o : Nat) (n : Nat) : (helloIntP (F := F) id).run works [stored (o, shown n)] = ([stored (o, shown (n + 1))], .ok (shown n)) := by
  have h := find_stored (F := F) [(o, shown n)]
  rw [List.map_cons, List.map_nil] at h
  simp only [helloIntP, Prog.run, works, h, orErr, updateP, count_stored]
  have := update_stored (F := F) o (shown n) []
  rw [List.map_cons, List.map_nil] at this
  rw [this, shown_succ]
  rfl

private theorem turns (ids : List Nat) : ∀ o n, inTurn [stored (F := F) (o, shown n)] ids =
    ((List.range ids.length).map (fun i => .ok (shown (n + i))), [stored (o, shown (n + ids.length))]) := by
  induction ids with
  | nil => intro o n; rfl
  | cons id ids ih =>
    intro o n
    simp only [inTurn, run_stored, ih, List.length_cons, List.range_succ_eq_map, List.map_cons, List.map_map]
    refine Prod.ext ?_ ?_
    · simp only [Nat.add_zero, List.cons.injEq, true_and]
      refine List.map_congr_left fun i _ => ?_
      simp only [Function.comp, Nat.succ_eq_add_one]
      rw [Nat.add_assoc, Nat.add_comm 1 i]
    · simp only [Nat.add_assoc, Nat.add_comm 1]

/-- C146: calls of `HelloInt` one after the other, on an empty collection: the first returns 0, the next 1 and so on, up to the 32 bits of the
stored count; there is one object, and its count is the number of calls. -/
theorem C146_in_turn (ids : List Nat) : (inTurn ([] : List (Doc F)) ids).1 = (List.range ids.length).map (fun i => .ok (shown i)) ∧
    (ids ≠ [] → ∃ d, (inTurn ([] : List (Doc F)) ids).2 = [d] ∧ countOf d = shown ids.length) := by
  cases ids with
  | nil => exact ⟨rfl, fun h => absurd rfl h⟩
  | cons id ids =>
    simp only [inTurn, run_empty, turns]
    refine ⟨?_, fun _ => ⟨_, rfl, ?_⟩⟩
    · rw [List.length_cons, List.range_succ_eq_map, List.map_cons, List.map_map]
      have e : (fun i => Ret.ok (shown (1 + i))) = (fun i => Ret.ok (shown i)) ∘ Nat.succ := by
        funext i
        simp only [Function.comp, Nat.succ_eq_add_one, Nat.add_comm]
      rw [e]
    · rw [count_stored, List.length_cons, Nat.add_comm]

theorem turned (ids : List Nat) (h : ids ≠ []) : ∃ o, (inTurn ([] : List (Doc F)) ids).2 = [stored (o, shown ids.length)] := by
  cases ids with
  | nil => exact absurd rfl h
  | cons id ids =>
    simp only [inTurn, run_empty, turns]
    exact ⟨id, by rw [List.length_cons, Nat.add_comm]⟩

/-- C146 refuted: the count is stored with 32 bits, so that call number 2^31 + 1 returns a negative number, although the result and the field
have 64. -/
theorem C146_wraps_refuted (ids : List Nat) (h : 2 ^ 31 < ids.length) : (inTurn ([] : List (Doc F)) ids).1[2 ^ 31]? = some (.ok (-2 ^ 31)) := by
  rw [(C146_in_turn ids).1, List.getElem?_map, List.getElem?_range h]
  rfl

/-! ### Calls at the same time -/

private inductive At (lo : Nat) (l : List (Nat × Int)) (K : Nat) : Bool → Prog (List (Doc F)) Int → Prop where
  | start (id : Nat) : At lo l K false (helloIntP id)
  | inserting (id : Nat) : lo = 0 →
      At lo l K false (.call (fun s => insertOne s (.obj (some myObject)) id) (orErr fun () => updateP (countOf (F := F) myObject)))
  | updating (j : Nat) : l ≠ [] → lo ≤ j → j ≤ K → At lo l K false (updateP (shown j))
  | ended (j : Nat) : lo ≤ j → j < K → At lo l K true (.ret (.ok (shown j)))

private theorem At.mono {lo : Nat} {l l' : List (Nat × Int)} {K K' : Nat} {b : Bool} {p : Prog (List (Doc F)) Int} (h : At lo l K b p)
    (hl : l ≠ [] → l' ≠ []) (hK : K ≤ K') : At lo l' K' b p := by
  cases h with
  | start id => exact .start id
  | inserting id h => exact .inserting id h
  | updating j h1 h2 h3 => exact .updating j (hl h1) h2 (Nat.le_trans h3 hK)
  | ended j h1 h => exact .ended j h1 (Nat.lt_of_lt_of_le h hK)

private inductive Ats (lo : Nat) (l : List (Nat × Int)) (K : Nat) : List Bool → List (Prog (List (Doc F)) Int) → Prop where
  | nil : Ats lo l K [] []
  | cons {b p bs ps} : At lo l K b p → Ats lo l K bs ps → Ats lo l K (b :: bs) (p :: ps)

private theorem Ats.append {lo : Nat} {l : List (Nat × Int)} {K : Nat} {bs cs : List Bool} {a b : List (Prog (List (Doc F)) Int)}
    (h : Ats lo l K bs a) (h' : Ats lo l K cs b) : Ats lo l K (bs ++ cs) (a ++ b) := by
  induction h with
  | nil => exact h'
  | cons h1 _ ih => exact .cons h1 ih

private theorem Ats.mono {lo : Nat} {l l' : List (Nat × Int)} {K K' : Nat} {bs : List Bool} {ps : List (Prog (List (Doc F)) Int)}
    (h : Ats lo l K bs ps) (hl : l ≠ [] → l' ≠ []) (hK : K ≤ K') : Ats lo l' K' bs ps := by
  induction h with
  | nil => exact .nil
  | cons h1 _ ih => exact .cons (h1.mono hl hK) ih

private theorem Ats.split {lo : Nat} {l : List (Nat × Int)} {K : Nat} : ∀ (a : List (Prog (List (Doc F)) Int)) {b : List (Prog (List (Doc F)) Int)}
    {q : Prog (List (Doc F)) Int} {bs : List Bool}, Ats lo l K bs (a ++ q :: b) →
      ∃ ba x bb, bs = ba ++ x :: bb ∧ Ats lo l K ba a ∧ At lo l K x q ∧ Ats lo l K bb b := by
  intro a
  induction a with
  | nil => intro b q l h; cases h with | cons h1 h2 => exact ⟨[], _, _, rfl, .nil, h1, h2⟩
  | cons p a ih =>
    intro b q l h
    cases h with
    | cons h1 h2 =>
      obtain ⟨la, t, lb, rfl, h3, h4, h5⟩ := ih h2
      exact ⟨_ :: la, t, lb, rfl, .cons h1 h3, h4, h5⟩

private structure Inv (l : List (Nat × Int)) (K : Nat) : Prop where
  none : l = [] → K = 0
  first : ∀ x l', l = x :: l' → x.2 = shown K

/-- One step of one of the calls. -/
private theorem step {lo : Nat} {l : List (Nat × Int)} {K : Nat} (hlo : lo ≤ K) (hi : Inv l K) {β : Type}
    {f : List (Doc F) → List (Doc F) × Ret β} {k : Ret β → Prog (List (Doc F)) Int} {b : Bool} (h : At lo l K b (.call f k)) :
    b = false ∧ ∃ l' b', (f (l.map stored)).1 = l'.map stored ∧ Inv l' (K + b'.toNat) ∧ (l ≠ [] → l' ≠ []) ∧
      At lo l' (K + b'.toNat) b' (k (f (l.map stored)).2) := by
  generalize hp : Prog.call f k = p at h
  cases h with
  | start id =>
    refine ⟨rfl, l, false, ?_⟩
    unfold helloIntP at hp
    injection hp with e1 e2 e3
    subst e1
    have e2 := eq_of_heq e2
    have e3 := eq_of_heq e3
    subst e2; subst e3
    refine ⟨rfl, hi, fun h => h, ?_⟩
    show At lo l K false (orErr _ (findMany (l.map stored) filter))
    rw [find_stored]
    cases l with
    | nil => exact .inserting id (by have := hi.none rfl; omega)
    | cons x l =>
      show At _ _ _ _ (updateP (countOf (stored x)))
      rw [count_stored, hi.first x l rfl]
      exact .updating K (by simp) hlo (Nat.le_refl _)
  | inserting id h0 =>
    injection hp with e1 e2 e3
    subst e1
    have e2 := eq_of_heq e2
    have e3 := eq_of_heq e3
    subst e2; subst e3
    refine ⟨rfl, l ++ [(id, 0)], false, ?_, ?_, by simp, ?_⟩
    · show (insertOne (l.map stored) _ id).1 = _
      rw [insert_stored]
    · refine ⟨by simp, ?_⟩
      intro x l' e
      cases l with
      | nil =>
        simp only [List.nil_append, List.cons.injEq] at e
        obtain ⟨rfl, -⟩ := e
        show (0 : Int) = shown (K + 0)
        rw [hi.none rfl]
        rfl
      | cons y l =>
        simp only [List.cons_append, List.cons.injEq] at e
        obtain ⟨rfl, -⟩ := e
        exact hi.first _ _ rfl
    · show At _ _ _ _ (orErr _ (insertOne (l.map stored) _ id).2)
      rw [insert_stored]
      exact .updating 0 (by simp) (by omega) (Nat.zero_le _)
  | updating j h1 h0 h2 =>
    unfold updateP at hp
    injection hp with e1 e2 e3
    subst e1
    have e2 := eq_of_heq e2
    have e3 := eq_of_heq e3
    subst e2; subst e3
    obtain ⟨⟨o, n⟩, l', rfl⟩ := List.exists_cons_of_ne_nil h1
    refine ⟨rfl, (o, shown (K + 1)) :: l', true, ?_, ⟨by simp, ?_⟩, by simp, .ended j h0 (by simp; omega)⟩
    · show (updateOne _ filter update).1 = _
      rw [update_stored, ← shown_succ, ← hi.first _ _ rfl]
    · intro x l'' e
      simp only [List.cons.injEq] at e
      obtain ⟨rfl, -⟩ := e
      rfl
  | ended j h0 h => cases hp

private theorem together_inv {lo : Nat} {s s' : List (Doc F)} {ps ps' : List (Prog (List (Doc F)) Int)} (h : Together s ps s' ps') : ∀ l K bs,
    s = l.map stored → Inv l K → Ats lo l K bs ps → K = lo + bs.count true →
    ∃ l' K' bs', s' = l'.map stored ∧ Inv l' K' ∧ Ats lo l' K' bs' ps' ∧ K' = lo + bs'.count true ∧ bs'.length = bs.length := by
  induction h with
  | none s ps => intro l K bs h1 h2 h3 h4; exact ⟨l, K, bs, h1, h2, h3, h4, rfl⟩
  | call a b f k s s' ps' _ ih =>
    intro l K bs h1 h2 h3 h4
    obtain ⟨ba, x, bb, rfl, k1, k2, k3⟩ := h3.split
    subst h1
    obtain ⟨rfl, l', b', g1, g2, g3, g4⟩ := step (by omega) h2 k2
    obtain ⟨l2, K2, bs2, r1, r2, r3, r4, r5⟩ := ih l' (K + b'.toNat) (ba ++ b' :: bb) g1 g2
      ((k1.mono g3 (Nat.le_add_right _ _)).append (.cons g4 (k3.mono g3 (Nat.le_add_right _ _)))) (by
        rw [h4]
        cases b' <;> simp [List.count_append] <;> omega)
    exact ⟨l2, K2, bs2, r1, r2, r3, r4, by rw [r5]; simp⟩

private theorem all_ended {lo : Nat} {l : List (Nat × Int)} {K : Nat} {bs : List Bool} {ps : List (Prog (List (Doc F)) Int)}
    (h : Ats lo l K bs ps) : ∀ rs : List (Ret Int), ps = rs.map .ret →
      bs.count true = bs.length ∧ rs.length = bs.length ∧ ∀ r ∈ rs, ∃ j, lo ≤ j ∧ j < K ∧ r = .ok (shown j) := by
  induction h with
  | nil => intro rs hr; cases rs with
    | nil => exact ⟨rfl, rfl, by simp⟩
    | cons r rs => cases hr
  | cons h1 _ ih =>
    intro rs hr
    cases rs with
    | nil => cases hr
    | cons r rs =>
      simp only [List.map_cons, List.cons.injEq] at hr
      obtain ⟨rfl, hr⟩ := hr
      obtain ⟨e1, e2, e3⟩ := ih rs hr
      cases h1 with
      | ended j h0 hj =>
        refine ⟨by simp [e1], by simp [e2], ?_⟩
        intro r hr
        rcases List.mem_cons.1 hr with rfl | hr
        · exact ⟨j, h0, hj, rfl⟩
        · exact e3 r hr

private theorem batch {lo : Nat} {l : List (Nat × Int)} (hi : Inv l lo) (ids : List Nat) (s : List (Doc F)) (rs : List (Ret Int))
    (h : Together (l.map stored) (ids.map helloIntP) s (rs.map .ret)) : rs.length = ids.length ∧
      (∃ l', s = l'.map stored ∧ Inv l' (lo + ids.length)) ∧ ∀ r ∈ rs, ∃ j, lo ≤ j ∧ j < lo + ids.length ∧ r = .ok (shown j) := by
  have start : ∀ ids : List Nat, Ats (F := F) lo l lo (ids.map fun _ => false) (ids.map helloIntP) := by
    intro ids
    induction ids with
    | nil => exact .nil
    | cons id ids ih => exact .cons (.start id) ih
  have hc : (ids.map fun _ => false).count true = 0 := by
    rw [List.count_eq_zero]
    simp
  obtain ⟨l', K, bs, r1, r2, r3, r4, r5⟩ := together_inv h l lo _ rfl hi (start ids) (by rw [hc]; rfl)
  obtain ⟨e1, e2, e3⟩ := all_ended r3 rs rfl
  rw [List.length_map] at r5
  rw [e1, r5] at r4
  subst r4
  exact ⟨by omega, ⟨l', r1, r2⟩, e3⟩

private theorem Inv.count {l : List (Nat × Int)} {K : Nat} (h : Inv l K) (hK : K ≠ 0) :
    ∃ d rest, l.map (stored (F := F)) = d :: rest ∧ countOf d = shown K := by
  cases l with
  | nil => exact absurd (h.none rfl) hK
  | cons x l => exact ⟨_, _, rfl, by rw [count_stored, h.first x l rfl]⟩

/-- C146: any number of calls of `HelloInt` at the same time, on an empty collection, their calls of the database in any order: once all of
them have returned, the count of the first object is the number of calls, and each has returned a number of calls that were already counted:
less than all of them. -/
theorem C146_counted_partial (ids : List Nat) (hne : ids ≠ []) (s : List (Doc F)) (rs : List (Ret Int))
    (h : Together [] (ids.map helloIntP) s (rs.map .ret)) :
    (∃ d rest, s = d :: rest ∧ countOf d = shown ids.length) ∧ rs.length = ids.length ∧
      ∀ r ∈ rs, ∃ j, j < ids.length ∧ r = .ok (shown j) := by
  obtain ⟨h1, ⟨l, rfl, h2⟩, h3⟩ := batch (l := []) (lo := 0) ⟨fun _ => rfl, by simp⟩ ids s rs h
  rw [Nat.zero_add] at h2
  refine ⟨h2.count fun e => hne (List.length_eq_zero_iff.1 e), h1, fun r hr => ?_⟩
  obtain ⟨j, -, hj, e⟩ := h3 r hr
  exact ⟨j, by omega, e⟩

/-- C146: a call that starts after others have returned returns at least their number, also if the others were at the same time as each other
and it is at the same time as still others; and the count goes on from there. -/
theorem C146_later (ids later : List Nat) (s s' : List (Doc F)) (rs rs' : List (Ret Int))
    (h : Together [] (ids.map helloIntP) s (rs.map .ret)) (h' : Together s (later.map helloIntP) s' (rs'.map .ret)) :
    (∀ r ∈ rs', ∃ j, ids.length ≤ j ∧ j < ids.length + later.length ∧ r = .ok (shown j)) ∧ rs'.length = later.length ∧
      (ids.length + later.length ≠ 0 → ∃ d rest, s' = d :: rest ∧ countOf d = shown (ids.length + later.length)) := by
  obtain ⟨-, ⟨l, rfl, h2⟩, -⟩ := batch (l := []) (lo := 0) ⟨fun _ => rfl, by simp⟩ ids s rs h
  rw [Nat.zero_add] at h2
  obtain ⟨k1, ⟨l', rfl, k2⟩, k3⟩ := batch h2 later s' rs' h'
  exact ⟨k3, k1, k2.count⟩

/-- C146 refuted: the numbers returned are not different ones, and there may be more than one object.  Two calls at the same time on an empty
collection both return 0, and both insert the object. -/
theorem C146_twice_refuted (a b : Nat) : ∃ s : List (Doc F), Together [] [helloIntP a, helloIntP b] s [.ret (.ok 0), .ret (.ok 0)] ∧
    s.length = 2 :=
  ⟨_, .call [] _ _ _ _ _ _ (.call [_] _ _ _ _ _ _ (.call [] _ _ _ _ _ _ (.call [_] _ _ _ _ _ _ (.call [] _ _ _ _ _ _
    (.call [_] _ _ _ _ _ _ (.none _ _)))))), rfl⟩

end Verif.Leaf
