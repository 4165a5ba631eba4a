import Verif.Live.DeploySpec
import Verif.Strings.Props
/-
The command line in the bash function of a process, read as the shell reads it.
-/
namespace Verif.Live
open Verif.Wiring (Name)
open Verif.Strings (cleanName envVar)

theorem splitAt_append {sep : Char} : ∀ (a b : List Char), sep ∉ a → splitAt sep (a ++ sep :: b) = a :: splitAt sep b
  | [], b, _ => by simp [splitAt]
  | c :: a, b, h => by
    simp only [List.mem_cons, not_or] at h
    have hc : ¬ c = sep := fun e => h.1 e.symm
    simp only [List.cons_append, splitAt, hc, if_false, splitAt_append a b h.2]

theorem splitAt_none {sep : Char} : ∀ (a : List Char), sep ∉ a → splitAt sep a = [a]
  | [], _ => rfl
  | c :: a, h => by
    simp only [List.mem_cons, not_or] at h
    have hc : ¬ c = sep := fun e => h.1 e.symm
    simp only [splitAt, hc, if_false, splitAt_none a h.2]

/-- A flag of the generated command line. -/
def flagWord (n : Name) : List Char := '-' :: '-' :: (n.toList ++ '=' :: '$' :: envVar n.toList)

theorem flagText_eq (n : Name) : flagText n = ' ' :: flagWord n := by
  unfold flagText flagWord
  have h1 : " --".toList = [' ', '-', '-'] := by decide +kernel
  have h2 : "=$".toList = ['=', '$'] := by decide +kernel
  simp [h1, h2]

theorem ident_chars {x : List Char} (h : ' ' ∉ x) (c : Char) (hc : c ∈ cleanName x) :
    c ∈ Strings.lowers ++ Strings.uppers ++ Strings.digits ++ ['_'] := by
  rcases (Strings.C23_identifier_partial x h).1 c hc with h | h
  · simp only [Strings.alnum, decide_eq_true_eq] at h
    simp only [List.mem_append]
    rcases h with h | h | h
    · exact .inl (.inl (.inl h))
    · exact .inl (.inl (.inr h))
    · exact .inl (.inr h)
  · simp [h]

theorem clean_chars {x : List Char} (h : ' ' ∉ x) : ' ' ∉ cleanName x ∧ '\n' ∉ cleanName x :=
  ⟨fun hc => (by decide +kernel : ' ' ∉ Strings.lowers ++ Strings.uppers ++ Strings.digits ++ ['_']) (ident_chars h _ hc),
    fun hc => (by decide +kernel : '\n' ∉ Strings.lowers ++ Strings.uppers ++ Strings.digits ++ ['_']) (ident_chars h _ hc)⟩

theorem var_chars {x : List Char} (h : ' ' ∉ x) (c : Char) (hc : c ∈ envVar x) : (c.isAlphanum || c == '_') = true ∧ c ≠ ' ' ∧ c ≠ '\n' := by
  unfold envVar at hc
  obtain ⟨d, hd, rfl⟩ := List.mem_map.1 hc
  exact (by decide +kernel : ∀ d ∈ Strings.lowers ++ Strings.uppers ++ Strings.digits ++ ['_'],
    ((Strings.upper d).isAlphanum || Strings.upper d == '_') = true ∧ Strings.upper d ≠ ' ' ∧ Strings.upper d ≠ '\n') d (ident_chars h d hd)

theorem flagWord_plain {n : Name} (h : ' ' ∉ n.toList) (h' : '\n' ∉ n.toList) : ' ' ∉ flagWord n ∧ '\n' ∉ flagWord n := by
  have hv : ' ' ∉ envVar n.toList := fun hc => (var_chars h _ hc).2.1 rfl
  have hv' : '\n' ∉ envVar n.toList := fun hc => (var_chars h _ hc).2.2 rfl
  unfold flagWord
  simp [h, h', hv, hv']

theorem takeWhile_all {p : Char → Bool} : ∀ {l : List Char}, (∀ c ∈ l, p c = true) → l.takeWhile p = l ∧ l.dropWhile p = []
  | [], _ => ⟨rfl, rfl⟩
  | c :: l, h => by
    have hc := h c (.head _)
    have := takeWhile_all fun c hc => h c (.tail _ hc)
    simp [hc, this]

theorem takeWhile_stop {p : Char → Bool} {c : Char} (hc : p c = false) : ∀ {l r : List Char}, (∀ c ∈ l, p c = true) →
    (l ++ c :: r).takeWhile p = l ∧ (l ++ c :: r).dropWhile p = c :: r
  | [], r, _ => by simp [hc]
  | d :: l, r, h => by
    have hd := h d (.head _)
    have := takeWhile_stop hc (r := r) fun c hc => h c (.tail _ hc)
    simp [hd, this]

theorem flagOf_word {n : Name} (h : ' ' ∉ n.toList) (h' : '=' ∉ n.toList) (env : List Char → Option (List Char)) :
    flagOf env (flagWord n) = some (n.toList, (env (envVar n.toList)).getD []) := by
  have e := takeWhile_stop (p := fun c => decide (c ≠ '=')) (c := '=') (by decide) (l := n.toList) (r := '$' :: envVar n.toList)
    (fun c hc => decide_eq_true fun e => h' (e ▸ hc))
  have v := takeWhile_all (p := fun c => c.isAlphanum || c == '_') (l := envVar n.toList) fun c hc => (var_chars h c hc).1
  unfold flagWord flagOf
  simp only [e, expand, List.drop_one, List.tail_cons, v, List.append_nil]

private theorem words_eq : ∀ (args : List Name) (x : List Char), ' ' ∉ x → (∀ n ∈ args, ' ' ∉ flagWord n) →
    splitAt ' ' (x ++ (args.flatMap flagText ++ [' ', '&'])) = x :: (args.map flagWord ++ [['&']])
  | [], x, hx, _ => by
    show splitAt ' ' (x ++ ' ' :: ['&']) = _
    rw [splitAt_append _ _ hx]
    rfl
  | n :: args, x, hx, h => by
    have := words_eq args (flagWord n) (h n (.head _)) fun n hn => h n (.tail _ hn)
    simp only [List.flatMap_cons, flagText_eq, List.append_assoc, List.cons_append]
    rw [splitAt_append _ _ hx, this]
    rfl

private theorem no_newline : ∀ (args : List Name), (∀ n ∈ args, '\n' ∉ flagWord n) → '\n' ∉ args.flatMap flagText := by
  intro args h hc
  obtain ⟨n, hn, hc⟩ := List.mem_flatMap.1 hc
  rw [flagText_eq] at hc
  rcases List.mem_cons.1 hc with hc | hc
  · exact absurd hc (by decide)
  · exact h n hn hc

/-- The command line of a process. -/
theorem command_runBody {x : Name} {args : List Name} (hx : ' ' ∉ x.toList)
    (h : ∀ n ∈ args, ' ' ∉ n.toList ∧ '\n' ∉ n.toList) :
    commandLine (runBody x args) = ('.' :: '/' :: cleanName x.toList) :: (args.map flagWord ++ [['&']]) := by
  have hw : ∀ n ∈ args, ' ' ∉ flagWord n ∧ '\n' ∉ flagWord n := fun n hn => flagWord_plain (h n hn).1 (h n hn).2
  have hP := clean_chars hx
  have k1 : "\n\tcd ".toList = ['\n', '\t', 'c', 'd', ' '] := by decide +kernel
  have k2 : "\n    ./".toList = ['\n', ' ', ' ', ' ', ' ', '.', '/'] := by decide +kernel
  have k3 : " &\n\t".toList = [' ', '&', '\n', '\t'] := by decide +kernel
  unfold runBody commandLine
  rw [k1, k2, k3, List.append_assoc _ (envVar _)]
  generalize envVar (cleanName x.toList) ++ "=$!\n\treturn $?\n".toList = r at *
  generalize cleanName x.toList = P at *
  have e1 : splitAt '\n' (['\n', '\t', 'c', 'd', ' '] ++ P ++ ['\n', ' ', ' ', ' ', ' ', '.', '/'] ++ P ++ args.flatMap flagText ++
      [' ', '&', '\n', '\t'] ++ r) = [] :: (['\t', 'c', 'd', ' '] ++ P) ::
      ([' ', ' ', ' ', ' ', '.', '/'] ++ P ++ args.flatMap flagText ++ [' ', '&']) :: splitAt '\n' ('\t' :: r) := by
    have a1 := splitAt_append (sep := '\n') [] (['\t', 'c', 'd', ' '] ++ P ++ '\n' :: ([' ', ' ', ' ', ' ', '.', '/'] ++ P ++ args.flatMap flagText ++
      [' ', '&'] ++ '\n' :: '\t' :: r)) (by simp)
    have a2 := splitAt_append (sep := '\n') (['\t', 'c', 'd', ' '] ++ P) ([' ', ' ', ' ', ' ', '.', '/'] ++ P ++ args.flatMap flagText ++
      [' ', '&'] ++ '\n' :: '\t' :: r) (by simp [hP.2])
    have a3 := splitAt_append (sep := '\n') ([' ', ' ', ' ', ' ', '.', '/'] ++ P ++ args.flatMap flagText ++ [' ', '&']) ('\t' :: r)
      (by simp only [List.mem_append]; rintro (((h | h) | h) | h)
          · revert h; decide
          · exact hP.2 h
          · exact no_newline args (fun n hn => (hw n hn).2) h
          · revert h; decide)
    rw [← a3, ← a2, ← a1]
    simp
  have e2 : wordsOf ([' ', ' ', ' ', ' ', '.', '/'] ++ P ++ args.flatMap flagText ++ [' ', '&']) =
      ('.' :: '/' :: P) :: (args.map flagWord ++ [['&']]) := by
    have := words_eq args ('.' :: '/' :: P) (by simp [hP.1]) fun n hn => (hw n hn).1
    have e3 : splitAt ' ' ([' ', ' ', ' ', ' ', '.', '/'] ++ P ++ args.flatMap flagText ++ [' ', '&']) =
        [] :: [] :: [] :: [] :: splitAt ' ' ('.' :: '/' :: P ++ (args.flatMap flagText ++ [' ', '&'])) := by
      simp [splitAt]
    unfold wordsOf
    rw [e3, this]
    have : (args.map flagWord).filter (· ≠ []) = args.map flagWord := by
      apply List.filter_eq_self.2
      intro w hw
      obtain ⟨n, -, rfl⟩ := List.mem_map.1 hw
      simp [flagWord]
    simp [List.filter_cons, List.filter_append] at this ⊢
    exact this
  rw [e1]
  simp only [List.map_cons, e2]
  have e4 : wordsOf [] = [] := by simp [wordsOf, splitAt]
  have e5 : ∃ ws, wordsOf (['\t', 'c', 'd', ' '] ++ P) = ['\t', 'c', 'd'] :: ws := by
    have := splitAt_append (sep := ' ') ['\t', 'c', 'd'] P (by decide)
    have this' : splitAt ' ' (['\t', 'c', 'd', ' '] ++ P) = ['\t', 'c', 'd'] :: splitAt ' ' P := this
    refine ⟨(splitAt ' ' P).filter (· ≠ []), ?_⟩
    unfold wordsOf
    rw [this']
    simp
  obtain ⟨ws, e5⟩ := e5
  rw [e4, e5]
  simp

/-- The flags of a process are the values of the variables for its arguments. -/
theorem flags_runBody {x : Name} {args : List Name} (hx : ' ' ∉ x.toList)
    (h : ∀ n ∈ args, ' ' ∉ n.toList ∧ '\n' ∉ n.toList ∧ '=' ∉ n.toList) (env : List Char → Option (List Char)) :
    givenFlags (runBody x args) env = args.map fun n => (n.toList, (env (envVar n.toList)).getD []) := by
  unfold givenFlags
  rw [command_runBody hx fun n hn => ⟨(h n hn).1, (h n hn).2.1⟩]
  simp only [List.drop_one, List.tail_cons, List.filterMap_append]
  have : flagOf env ['&'] = none := rfl
  simp only [List.filterMap_cons, this, List.filterMap_nil, List.append_nil]
  clear hx
  induction args with
  | nil => rfl
  | cons n args ih =>
    simp only [List.map_cons, List.filterMap_cons, flagOf_word (h n (.head _)).1 (h n (.head _)).2.2]
    rw [ih fun n hn => h n (.tail _ hn)]

theorem lookup_map_same {β : Type} (f : Name → β) (n : Name) : ∀ (l : List Name), n ∈ l →
    (l.map fun n => (n.toList, f n)).lookup n.toList = some (f n)
  | [], h => nomatch h
  | m :: l, h => by
    by_cases e : n = m
    · subst e; simp
    · have e' : (n.toList == m.toList) = false := beq_eq_false_iff_ne.2 fun h => e (String.toList_inj.1 h)
      simp only [List.map_cons, List.lookup_cons, e']
      refine lookup_map_same f n l ?_
      rcases List.mem_cons.1 h with h | h
      · exact absurd h e
      · exact h

/-- A process sees the values of the variables for its arguments. -/
theorem world_runBody {x : Name} {args : List Name} (hx : ' ' ∉ x.toList)
    (h : ∀ n ∈ args, ' ' ∉ n.toList ∧ '\n' ∉ n.toList ∧ '=' ∉ n.toList) (env : List Char → Option (List Char)) (exported : List Char → String)
    {n : Name} (hn : n ∈ args) {v : String} (hv : env (envVar n.toList) = some v.toList) :
    (processWorld (runBody x args) env exported).flag n = v := by
  unfold processWorld
  simp only [flags_runBody hx h, ← List.map_reverse]
  rw [lookup_map_same _ n _ (by simpa using hn)]
  simp [hv]

end Verif.Live
