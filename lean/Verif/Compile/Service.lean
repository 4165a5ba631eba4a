import Verif.Compile.Run
import Verif.Compile.Spec
/-
What a wiring spec holds about a service that is declared, wrapped, deployed and put into namespaces, in this order.
-/
namespace Verif.Compile
set_option linter.unusedSimpArgs false
open Verif.Wiring (Name Spec Op Ptr Payload createPointer GoMap Def nextOf)

/-! ### The service and its wrappers -/

def topOf (T : Name) (ss : List Name) : Name := ss.getLastD (dstN T)

/-- The clients of a service, from the name that leads to the first one to what the last one calls. -/
def Chain (g : Name → Option Ent) : Name → List Name → Name → Prop
  | st, [], i => g st = some (.alias i)
  | st, x :: cs, i => g st = some (.alias x) ∧ g x = some (.node (.level 0) (some (.wrap (nextOf x)))) ∧ Chain g (nextOf x) cs i

def tailOf : Name → List Name → Name
  | st, [] => st
  | _, x :: cs => tailOf (nextOf x) cs

/-- Wrappers around a server. -/
def Tower (g : Name → Option Ent) : Name → List Name → Prop
  | _, [] => True
  | bot, x :: ss => g x = some (.node (.level 0) (some (.wrap bot))) ∧ Tower g x ss

theorem tailOf_mem : ∀ (cs : List Name) (st : Name), tailOf st cs ∈ st :: withNext cs
  | [], st => by simp [tailOf]
  | x :: cs, st => by
    have := tailOf_mem cs (nextOf x)
    simp only [tailOf, withNext, List.flatMap_cons, List.cons_append, List.nil_append] at this ⊢
    exact List.mem_cons_of_mem _ (List.mem_cons_of_mem _ this)

theorem tailOf_snoc : ∀ (cs : List Name) (st m : Name), tailOf st (cs ++ [m]) = nextOf m
  | [], _, _ => rfl
  | x :: cs, _, m => tailOf_snoc cs (nextOf x) m

theorem withNext_cons (x : Name) (cs : List Name) : withNext (x :: cs) = x :: nextOf x :: withNext cs := rfl

theorem withNext_append (cs cs' : List Name) : withNext (cs ++ cs') = withNext cs ++ withNext cs' := List.flatMap_append

theorem chain_snoc {g g' : Name → Option Ent} {m i i' : Name} : ∀ (cs : List Name) (st : Name), Chain g st cs i →
    (st :: withNext cs).Nodup → (∀ n ∈ st :: withNext cs, n ≠ tailOf st cs → g' n = g n) → g' (tailOf st cs) = some (.alias m) →
    g' m = some (.node (.level 0) (some (.wrap (nextOf m)))) → g' (nextOf m) = some (.alias i') → Chain g' st (cs ++ [m]) i'
  | [], st, _, _, _, h1, h2, h3 => ⟨h1, h2, h3⟩
  | x :: cs, st, hc, hn, he, h1, h2, h3 => by
    obtain ⟨c1, c2, c3⟩ := hc
    rw [withNext_cons] at hn he
    have hn' := (List.nodup_cons.1 hn).2
    have ht := tailOf_mem cs (nextOf x)
    refine ⟨?_, ?_, chain_snoc cs (nextOf x) c3 (List.nodup_cons.1 hn').2 (fun n hm => he n ?_) h1 h2 h3⟩
    · rw [he st (by simp) (fun e => (List.nodup_cons.1 hn).1 (by rw [e]; exact List.mem_cons_of_mem _ ht))]
      exact c1
    · rw [he x (by simp) (fun e => (List.nodup_cons.1 hn').1 (Eq.subst (motive := fun y => y ∈ nextOf x :: withNext cs) e.symm ht))]
      exact c2
    · exact List.mem_cons_of_mem _ (List.mem_cons_of_mem _ hm)

theorem chain_re {g g' : Name → Option Ent} {i i' : Name} : ∀ (cs : List Name) (st : Name), Chain g st cs i →
    (st :: withNext cs).Nodup → (∀ n ∈ st :: withNext cs, n ≠ tailOf st cs → g' n = g n) → g' (tailOf st cs) = some (.alias i') →
    Chain g' st cs i'
  | [], st, _, _, _, h1 => h1
  | x :: cs, st, hc, hn, he, h1 => by
    obtain ⟨c1, c2, c3⟩ := hc
    rw [withNext_cons] at hn he
    have hn' := (List.nodup_cons.1 hn).2
    have ht := tailOf_mem cs (nextOf x)
    refine ⟨?_, ?_, chain_re cs (nextOf x) c3 (List.nodup_cons.1 hn').2 (fun n hm => he n ?_) h1⟩
    · rw [he st (by simp) (fun e => (List.nodup_cons.1 hn).1 (by rw [e]; exact List.mem_cons_of_mem _ ht))]
      exact c1
    · rw [he x (by simp) (fun e => (List.nodup_cons.1 hn').1 (Eq.subst (motive := fun y => y ∈ nextOf x :: withNext cs) e.symm ht))]
      exact c2
    · exact List.mem_cons_of_mem _ (List.mem_cons_of_mem _ hm)

theorem chain_same {g g' : Name → Option Ent} {i : Name} : ∀ (cs : List Name) (st : Name), Chain g st cs i →
    (∀ n ∈ st :: withNext cs, g' n = g n) → Chain g' st cs i
  | [], st, hc, he => (he st (by simp)).trans hc
  | x :: cs, st, hc, he => by
    obtain ⟨c1, c2, c3⟩ := hc
    rw [withNext_cons] at he
    exact ⟨(he st (by simp)).trans c1, (he x (by simp)).trans c2,
      chain_same cs (nextOf x) c3 fun n hm => he n (List.mem_cons_of_mem _ (List.mem_cons_of_mem _ hm))⟩

theorem tower_same {g g' : Name → Option Ent} : ∀ (ss : List Name) (b : Name), Tower g b ss → (∀ n ∈ ss, g' n = g n) → Tower g' b ss
  | [], _, _, _ => True.intro
  | x :: ss, _, h, he => ⟨(he x (by simp)).trans h.1, tower_same ss x h.2 fun n hm => he n (List.mem_cons_of_mem _ hm)⟩

theorem tower_snoc {g : Name → Option Ent} {m : Name} : ∀ (ss : List Name) (b : Name), Tower g b ss →
    g m = some (.node (.level 0) (some (.wrap (ss.getLastD b)))) → Tower g b (ss ++ [m])
  | [], _, _, h => ⟨h, True.intro⟩
  | x :: ss, b, h, hm => ⟨h.1, tower_snoc ss x h.2 (by rw [List.getLastD_cons] at hm; exact hm)⟩

/-- The entries of a service itself. -/
structure Base (T : Name) (ctor : List Bool) (args : List Name) (g : Name → Option Ent) : Prop where
  self : g T = some (.node (.level 0) (some .ptr))
  handler : g (handlerN T) = some (.node (.level 0) (some (.handler T ctor args)))
  vis : g (visN T) = some (.node .app (some .visibility))
  check : g (checkN T) = some (.node (.level 0) (some (.check (visN T) (handlerN T))))
  dst : g (dstN T) = some (.alias (checkN T))
  src : g (srcN T) = some (.alias (clientN T))
  client : g (clientN T) = some (.node (.level 0) (some (.client (nextOf (clientN T)))))

theorem Base.same {T : Name} {ctor : List Bool} {args : List Name} {g g' : Name → Option Ent} (h : Base T ctor args g)
    (he : ∀ n ∈ baseNames T, g' n = g n) : Base T ctor args g' :=
  ⟨(he _ (by simp [baseNames])).trans h.self, (he _ (by simp [baseNames])).trans h.handler, (he _ (by simp [baseNames])).trans h.vis,
    (he _ (by simp [baseNames])).trans h.check, (he _ (by simp [baseNames])).trans h.dst, (he _ (by simp [baseNames])).trans h.src,
    (he _ (by simp [baseNames])).trans h.client⟩

/-- The service has been declared, with wrappers `ws`. -/
structure Wrapped (T : Name) (ctor : List Bool) (args : List Name) (ws : List (Bool × Name)) (f : Fam) : Prop where
  base : Base T ctor args f.tab
  chain : Chain f.tab (nextOf (clientN T)) (clients T ws) (topOf T (servers T ws))
  tower : Tower f.tab (dstN T) (servers T ws)
  ptr : ∃ p, f.ptr = some p ∧ p.srcHead = srcN T ∧ p.srcTail = tailOf (nextOf (clientN T)) (clients T ws) ∧
    p.interfaceNode = topOf T (servers T ws) ∧ p.dstHead = topOf T (servers T ws) ∧ p.dstModifiers.headD "" = topOf T (servers T ws)
  kids : f.kids = []
  names : ∀ n, f.tab n ≠ none → n ∈ wrapNames T ws

theorem clients_client (T x : Name) (ws : List (Bool × Name)) : clients T (ws ++ [(true, x)]) = clients T ws ++ [subN T x] := by
  simp [clients, List.filter_append]

theorem clients_server (T x : Name) (ws : List (Bool × Name)) : clients T (ws ++ [(false, x)]) = clients T ws := by
  simp [clients, List.filter_append]

theorem servers_client (T x : Name) (ws : List (Bool × Name)) : servers T (ws ++ [(true, x)]) = servers T ws := by
  simp [servers, List.filter_append]

theorem servers_server (T x : Name) (ws : List (Bool × Name)) : servers T (ws ++ [(false, x)]) = servers T ws ++ [subN T x] := by
  simp [servers, List.filter_append]

theorem wrapNames_client (T x : Name) (ws : List (Bool × Name)) :
    (wrapNames T (ws ++ [(true, x)])).Perm (wrapNames T ws ++ [subN T x, nextOf (subN T x)]) := by
  unfold wrapNames
  rw [clients_client, servers_client, withNext_append, withNext_cons]
  simp only [withNext, List.flatMap_nil, List.append_assoc, List.cons_append]
  refine List.Perm.append_left _ (List.Perm.cons _ (List.Perm.append_left _ ?_))
  exact List.perm_append_comm (l₁ := [subN T x, nextOf (subN T x)]) (l₂ := servers T ws)

theorem wrapNames_server (T x : Name) (ws : List (Bool × Name)) :
    wrapNames T (ws ++ [(false, x)]) = wrapNames T ws ++ [subN T x] := by
  unfold wrapNames
  rw [clients_server, servers_server]
  simp

theorem topOf_snoc (T m : Name) (ss : List Name) : topOf T (ss ++ [m]) = m := by
  simp [topOf]

theorem wrapNames_base {T n : Name} {ws : List (Bool × Name)} (h : n ∈ baseNames T) : n ∈ wrapNames T ws := by
  unfold wrapNames; simp only [List.mem_append]; exact .inl (.inl h)

theorem wrapNames_chain {T n : Name} {ws : List (Bool × Name)} (h : n ∈ nextOf (clientN T) :: withNext (clients T ws)) :
    n ∈ wrapNames T ws := by
  unfold wrapNames; simp only [List.mem_append]; exact .inl (.inr h)

theorem wrapNames_servers {T n : Name} {ws : List (Bool × Name)} (h : n ∈ servers T ws) : n ∈ wrapNames T ws := by
  unfold wrapNames; simp only [List.mem_append]; exact .inr h

theorem wrapNames_apart {T : Name} {ws : List (Bool × Name)} (hn : (wrapNames T ws).Nodup) :
    (nextOf (clientN T) :: withNext (clients T ws)).Nodup ∧
    (∀ n ∈ nextOf (clientN T) :: withNext (clients T ws), n ∉ baseNames T ∧ n ∉ servers T ws) := by
  unfold wrapNames at hn
  rw [List.nodup_append] at hn
  obtain ⟨h1, _, h3⟩ := hn
  rw [List.nodup_append] at h1
  refine ⟨h1.2.1, fun n hm => ⟨fun hb => h1.2.2 n hb n hm rfl, fun hb => h3 n (List.mem_append_right _ hm) n hb rfl⟩⟩

theorem wrapped_client {T : Name} {ctor : List Bool} {args : List Name} {ws : List (Bool × Name)} {f : Fam} {x : Name}
    (h : Wrapped T ctor args ws f) (hn : (wrapNames T (ws ++ [(true, x)])).Nodup) :
    Wrapped T ctor args (ws ++ [(true, x)]) (f.step T (.wrapClient T x)) := by
  have hperm := wrapNames_client T x ws
  have hn2 := hperm.nodup_iff.1 hn
  have hmem : ∀ n, n ∈ wrapNames T (ws ++ [(true, x)]) ↔ n ∈ wrapNames T ws ++ [subN T x, nextOf (subN T x)] := fun n => hperm.mem_iff
  rw [List.nodup_append] at hn2
  obtain ⟨hw, hmn, hdis⟩ := hn2
  obtain ⟨ha1, ha2⟩ := wrapNames_apart hw
  obtain ⟨p, hp, e1, e2, e3, e4, e5⟩ := h.ptr
  have hst : f.step T (.wrapClient T x) = (f.addSrc p (subN T x) .wrap).1 := by
    simp only [Fam.step, hp, subN]
  rw [hst]
  clear hst
  have hdm : subN T x ∉ wrapNames T ws := fun hh => hdis _ hh (subN T x) (by simp) rfl
  have hdx : nextOf (subN T x) ∉ wrapNames T ws := fun hh => hdis _ hh (nextOf (subN T x)) (by simp) rfl
  have hmx : subN T x ≠ nextOf (subN T x) := by
    intro e
    rw [List.nodup_cons] at hmn
    exact hmn.1 (by simp [← e])
  have ht := tailOf_mem (clients T ws) (nextOf (clientN T))
  simp only [Fam.addSrc]
  rw [e2, e3]
  have hce := clients_client T x ws
  have hse := servers_client T x ws
  generalize hm : subN T x = m at *
  generalize htl : tailOf (nextOf (clientN T)) (clients T ws) = tl at *
  have hold : ∀ n ∈ wrapNames T ws, n ≠ tl → ((((f.alias tl m).alias (nextOf m) (topOf T (servers T ws))).setPtr
      ⟨p.name, p.srcModifiers ++ [m], p.srcHead, nextOf m, topOf T (servers T ws), p.dstHead, p.dstModifiers⟩).define m (.level 0)
      (.wrap (nextOf m))).tab n = f.tab n := by
    intro n hn hne
    have h1 : n ≠ m := fun e => hdm (by rw [← e]; exact hn)
    have h2 : n ≠ nextOf m := fun e => hdx (by rw [← e]; exact hn)
    simp [Fam.define, Fam.setPtr, Fam.alias, h1, h2, hne]
  have htm : tl ≠ m := fun e => hdm (by rw [← e]; exact wrapNames_chain ht)
  have htx : tl ≠ nextOf m := fun e => hdx (by rw [← e]; exact wrapNames_chain ht)
  refine ⟨?_, ?_, ?_, ?_, ?_, ?_⟩
  · refine h.base.same fun n hb => hold n (wrapNames_base hb) fun e => (ha2 tl ht).1 (by rw [← e]; exact hb)
  · rw [hce, hse]
    refine chain_snoc (g := f.tab) _ _ h.chain ha1 (fun n hb => ?_) ?_ ?_ ?_
    · rw [htl]; exact hold n (wrapNames_chain hb)
    · rw [htl]; simp [Fam.define, Fam.setPtr, Fam.alias, htm, htx]
    · simp [Fam.define]
    · simp [Fam.define, Fam.setPtr, Fam.alias, hmx.symm]
  · rw [hse]
    refine tower_same _ _ h.tower fun n hb => hold n (wrapNames_servers hb) fun e => (ha2 tl ht).2 (by rw [← e]; exact hb)
  · rw [hce, hse, tailOf_snoc]
    exact ⟨_, rfl, e1, rfl, rfl, e4, e5⟩
  · exact h.kids
  · intro n hb
    rw [hmem]
    by_cases h1 : n = m
    · simp [h1]
    · by_cases h2 : n = nextOf m
      · simp [h2]
      · by_cases h3 : n = tl
        · rw [h3]; exact List.mem_append_left _ (wrapNames_chain ht)
        · simp only [Fam.define, Fam.setPtr, Fam.alias, h1, h2, h3, if_false] at hb
          exact List.mem_append_left _ (h.names n hb)

theorem wrapped_server {T : Name} {ctor : List Bool} {args : List Name} {ws : List (Bool × Name)} {f : Fam} {x : Name}
    (h : Wrapped T ctor args ws f) (hn : (wrapNames T (ws ++ [(false, x)])).Nodup) :
    Wrapped T ctor args (ws ++ [(false, x)]) (f.step T (.wrapServer T x)) := by
  have hmem := wrapNames_server T x ws
  rw [hmem, List.nodup_append] at hn
  obtain ⟨hw, _, hdis⟩ := hn
  obtain ⟨ha1, ha2⟩ := wrapNames_apart hw
  obtain ⟨p, hp, e1, e2, e3, e4, e5⟩ := h.ptr
  have hst : f.step T (.wrapServer T x) = ((f.alias p.srcTail (subN T x)).setPtr
      ⟨p.name, p.srcModifiers, p.srcHead, p.srcTail, subN T x, subN T x, subN T x :: p.dstModifiers⟩).define (subN T x) (.level 0)
      (.wrap p.dstHead) := by
    simp only [Fam.step, hp, subN]
  rw [hst]
  clear hst
  have hdm : subN T x ∉ wrapNames T ws := fun hh => hdis _ hh (subN T x) (by simp) rfl
  have ht := tailOf_mem (clients T ws) (nextOf (clientN T))
  rw [e2, e4]
  have hce := clients_server T x ws
  have hse := servers_server T x ws
  generalize hm : subN T x = m at *
  generalize htl : tailOf (nextOf (clientN T)) (clients T ws) = tl at *
  have hold : ∀ n ∈ wrapNames T ws, n ≠ tl → (((f.alias tl m).setPtr
      ⟨p.name, p.srcModifiers, p.srcHead, tl, m, m, m :: p.dstModifiers⟩).define m (.level 0) (.wrap (topOf T (servers T ws)))).tab n =
      f.tab n := by
    intro n hn hne
    have h1 : n ≠ m := fun e => hdm (by rw [← e]; exact hn)
    simp [Fam.define, Fam.setPtr, Fam.alias, h1, hne]
  have htm : tl ≠ m := fun e => hdm (by rw [← e]; exact wrapNames_chain ht)
  refine ⟨?_, ?_, ?_, ?_, ?_, ?_⟩
  · refine h.base.same fun n hb => hold n (wrapNames_base hb) fun e => (ha2 tl ht).1 (by rw [← e]; exact hb)
  · rw [hce, hse, topOf_snoc]
    refine chain_re (g := f.tab) _ _ h.chain ha1 (fun n hb => ?_) ?_
    · rw [htl]; exact hold n (wrapNames_chain hb)
    · rw [htl]; simp [Fam.define, Fam.setPtr, Fam.alias, htm]
  · rw [hse]
    refine tower_snoc _ _ ?_ ?_
    · exact tower_same _ _ h.tower fun n hb => hold n (wrapNames_servers hb) fun e => (ha2 tl ht).2 (by rw [← e]; exact hb)
    · simp [Fam.define, topOf]
  · rw [hce, hse, topOf_snoc, htl]
    exact ⟨_, rfl, e1, rfl, rfl, rfl, rfl⟩
  · exact h.kids
  · intro n hb
    rw [hmem]
    by_cases h1 : n = m
    · simp [h1]
    · by_cases h3 : n = tl
      · rw [h3]; exact List.mem_append_left _ (wrapNames_chain ht)
      · simp only [Fam.define, Fam.setPtr, Fam.alias, h1, h3, if_false] at hb
        exact List.mem_append_left _ (h.names n hb)

theorem wrapped_service (T : Name) (ctor : List Bool) (args : List Name) (hn : (wrapNames T []).Nodup) :
    Wrapped T ctor args [] (Fam.empty.step T (.service T ctor args)) := by
  have hst : Fam.empty.step T (.service T ctor args) = ((((((((Fam.empty.define (handlerN T) (.level 0) (.handler T ctor args)).alias
      (dstN T) (handlerN T)).define (visN T) .app .visibility).define (checkN T) (.level 0) (.check (visN T) (handlerN T))).alias (dstN T)
      (checkN T)).alias (srcN T) (dstN T)).define T (.level 0) .ptr).addSrc ⟨T, [], srcN T, srcN T, dstN T, dstN T, [dstN T]⟩ (clientN T)
      .client).1 := by
    simp only [Fam.step, handlerN, visN, checkN, dstN, srcN, clientN]
  rw [hst]
  clear hst
  have hwn : wrapNames T [] = [T, handlerN T, visN T, checkN T, dstN T, srcN T, clientN T, nextOf (clientN T)] := by
    simp [wrapNames, baseNames, clients, servers, withNext]
  rw [hwn] at hn
  have hcl : clients T [] = [] := rfl
  have hsv : servers T [] = [] := rfl
  have htop : topOf T [] = dstN T := rfl
  simp only [Fam.addSrc]
  simp only [List.nodup_cons, List.mem_cons, List.not_mem_nil, or_false, not_or] at hn
  obtain ⟨⟨a1, a2, a3, a4, a5, a6, a7⟩, ⟨b1, b2, b3, b4, b5, b6⟩, ⟨c1, c2, c3, c4, c5⟩, ⟨d1, d2, d3, d4⟩, ⟨g1, g2, g3⟩, ⟨i1, i2⟩, j1, _⟩ := hn
  have s1 : ∀ {a b : Name}, ¬ a = b → ¬ b = a := fun h e => h e.symm
  refine ⟨?_, ?_, by rw [hsv]; exact True.intro, ?_, rfl, ?_⟩
  · constructor <;> simp [Fam.define, Fam.alias, Fam.setPtr, s1 a1, s1 a2, s1 a3, s1 a4, s1 a5, s1 a6, s1 a7, s1 b1, s1 b2, s1 b3, s1 b4,
      s1 b5, s1 b6, s1 c1, s1 c2, s1 c3, s1 c4, s1 c5, s1 d1, s1 d2, s1 d3, s1 d4, s1 g1, s1 g2, s1 g3, s1 i1, s1 i2, s1 j1, *]
  · rw [hcl, hsv, htop]
    simp [Chain, Fam.define, Fam.alias, Fam.setPtr, s1 j1]
  · rw [hcl, hsv, htop]
    exact ⟨_, rfl, rfl, rfl, rfl, rfl, rfl⟩
  · intro n hb
    rw [hwn]
    simp only [Fam.define, Fam.alias, Fam.setPtr, Fam.empty] at hb
    simp only [List.mem_cons, List.not_mem_nil, or_false]
    refine Classical.byContradiction fun hno => hb ?_
    simp only [not_or] at hno
    obtain ⟨q1, q2, q3, q4, q5, q6, q7, q8⟩ := hno
    simp only [q1, q2, q3, q4, q5, q6, q7, q8, if_false]

theorem nodup_prefix {α : Type} {l r : List α} (h : (l ++ r).Nodup) : l.Nodup := (List.nodup_append.1 h).1

theorem wrapNames_mono (T : Name) (ws : List (Bool × Name)) (w : Bool × Name) (h : (wrapNames T (ws ++ [w])).Nodup) :
    (wrapNames T ws).Nodup := by
  obtain ⟨b, x⟩ := w
  cases b with
  | true => exact nodup_prefix ((wrapNames_client T x ws).nodup_iff.1 h)
  | false => rw [wrapNames_server] at h; exact nodup_prefix h

theorem wrapNames_nil {T : Name} {ws : List (Bool × Name)} (h : (wrapNames T ws).Nodup) : (wrapNames T []).Nodup := by
  induction ws using Wiring.concat_induction with
  | nil => exact h
  | append ws w ih => exact ih (wrapNames_mono T ws w h)

theorem wrapped_all (T : Name) (ctor : List Bool) (args : List Name) (ws : List (Bool × Name)) (hn : (wrapNames T ws).Nodup) :
    Wrapped T ctor args ws ((.service T ctor args :: ws.map (wrapDecl T)).foldl (Fam.step T) Fam.empty) := by
  induction ws using Wiring.concat_induction with
  | nil => exact wrapped_service T ctor args hn
  | append ws w ih =>
    have ih := ih (wrapNames_mono T ws w hn)
    rw [List.map_append, ← List.cons_append, List.foldl_append]
    obtain ⟨b, x⟩ := w
    cases b with
    | true => exact wrapped_client ih hn
    | false => exact wrapped_server ih hn

/-! ### Deployments and namespaces -/

/-- What the last of a service's clients calls. -/
def Svc.callee (S : Svc) : Name := if S.rpc then S.rpcClientN else topOf S.name (servers S.name S.wraps)

/-- The outermost server of a service. -/
def Svc.server (S : Svc) : Name := if S.rpc then S.serverN else topOf S.name (servers S.name S.wraps)

/-- What is shared between a service's clients and the service. -/
def Svc.iface (S : Svc) : Name := if S.rpc then S.addrN else topOf S.name (servers S.name S.wraps)

/-- What leads to the service in the outermost of the namespaces `a`. -/
def Svc.under (S : Svc) (a : List Name) : Name := (a.map (subN S.name)).getLastD S.server

def Svc.deployNames (S : Svc) : List Name := S.coreNames ++ if S.rpc then rpcNames S else []

/-- The definition of what binds the service's address. -/
def Svc.binder (S : Svc) : Kind :=
  if S.back then .container S.addrN else .grpcServer (topOf S.name (servers S.name S.wraps)) S.addrN

/-- The entries of a deployment over gRPC, HTTP or Thrift, or of a backend. -/
structure Rpc (S : Svc) (g : Name → Option Ent) : Prop where
  addr : g S.addrN = some (.node .app (some .addr))
  bind : g (bindName S.addrN) = some (.node .app (some .bind))
  dial : g (dialName S.addrN) = some (.node .app (some .dial))
  client : g S.rpcClientN = some (.node (.level 0) (some (.grpcClient (nextOf S.rpcClientN))))
  next : g (nextOf S.rpcClientN) = some (.alias S.addrN)
  server : g S.serverN = some (.node (.level S.base) (some S.binder))

theorem Rpc.same {S : Svc} {g g' : Name → Option Ent} (h : Rpc S g) (he : ∀ n ∈ rpcNames S, g' n = g n) : Rpc S g' :=
  ⟨(he _ (by simp [rpcNames])).trans h.addr, (he _ (by simp [rpcNames])).trans h.bind, (he _ (by simp [rpcNames])).trans h.dial,
    (he _ (by simp [rpcNames])).trans h.client, (he _ (by simp [rpcNames])).trans h.next, (he _ (by simp [rpcNames])).trans h.server⟩

/-- The service has been put into namespaces `pl`. -/
structure Placed (S : Svc) (pl : List Name) (f : Fam) : Prop where
  self : f.tab S.name = some (.node (.level 0) (some .ptr))
  src : f.tab (srcN S.name) = some (.alias (clientN S.name))
  base : S.back = false → Base S.name S.ctor S.args f.tab
  chain : S.back = false → Chain f.tab (nextOf (clientN S.name)) (clients S.name S.wraps) S.callee
  tower : S.back = false → Tower f.tab (dstN S.name) (servers S.name S.wraps)
  rpc : S.rpc = true → Rpc S f.tab
  enters : ∀ a x b, pl = a ++ x :: b → f.tab (subN S.name x) = some (.node (.level (S.base + a.length + 1)) (some (.enter x (S.under a))))
  ptr : ∃ p, f.ptr = some p ∧ p.srcHead = srcN S.name ∧ p.interfaceNode = S.iface ∧ p.dstHead = S.under pl ∧
    p.dstModifiers.headD "" = S.under pl
  kids : ∀ x c, (x, c) ∈ f.kids ↔ ∃ a b, pl = a ++ x :: b ∧ c = S.under a
  names : ∀ n, f.tab n ≠ none → n ∈ S.deployNames ++ pl.map (subN S.name)

theorem placed_local {S : Svc} {f : Fam} (hk : S.back = false) (hr : S.rpc = false) (h : Wrapped S.name S.ctor S.args S.wraps f) : Placed S [] f := by
  obtain ⟨p, hp, e1, e2, e3, e4, e5⟩ := h.ptr
  refine ⟨h.base.self, h.base.src, fun _ => h.base, fun _ => ?_, fun _ => h.tower, fun e => ?_, fun a x b e => ?_, ⟨p, hp, e1, ?_, ?_, ?_⟩, ?_, ?_⟩
  · simp only [Svc.callee, hr, Bool.false_eq_true, if_false]; exact h.chain
  · rw [hr] at e; cases e
  · simp at e
  · simp only [Svc.iface, hr, Bool.false_eq_true, if_false]; exact e3
  · simp only [Svc.under, Svc.server, hr, Bool.false_eq_true, if_false]; exact e4
  · simp only [Svc.under, Svc.server, hr, Bool.false_eq_true, if_false]; exact e5
  · simp [h.kids]
  · intro n hn
    simp only [Svc.deployNames, Svc.coreNames, hk, Bool.false_eq_true, if_false, List.mem_append]
    exact .inl (.inl (h.names n hn))

theorem placed_rpc {S : Svc} {f : Fam} (hk : S.back = false) (hr : S.rpc = true) (h : Wrapped S.name S.ctor S.args S.wraps f)
    (hn : S.deployNames.Nodup) : Placed S [] (f.step S.name (.rpc S.proto S.name)) := by
  obtain ⟨p, hp, e1, e2, e3, e4, e5⟩ := h.ptr
  simp only [Svc.deployNames, Svc.coreNames, hk, hr, Bool.false_eq_true, if_false, if_true] at hn
  rw [List.nodup_append] at hn
  obtain ⟨hw, hrn, hdis⟩ := hn
  obtain ⟨ha1, ha2⟩ := wrapNames_apart hw
  have ht := tailOf_mem (clients S.name S.wraps) (nextOf (clientN S.name))
  have hst : f.step S.name (.rpc S.proto S.name) =
      ((((((((f.define S.addrN .app .addr).define (bindName S.addrN) .app .bind).define (dialName S.addrN) .app
        .dial).addSrc p S.rpcClientN .grpcClient).1.alias (nextOf S.rpcClientN) S.serverN).alias
        (nextOf S.rpcClientN) S.addrN).setPtr ⟨p.name, p.srcModifiers ++ [S.rpcClientN], p.srcHead,
          nextOf S.rpcClientN, S.addrN, S.serverN, S.serverN :: p.dstModifiers⟩).define S.serverN
        (.level 0) (.grpcServer p.dstHead S.addrN)) := by
    simp only [Fam.step, hp, Svc.addrN, Svc.rpcClientN, Svc.serverN, hk, Bool.false_eq_true, if_false, addrN, rpcClientN, serverN, Fam.addSrc]
  rw [hst]
  clear hst
  simp only [Fam.addSrc, e2, e3, e4]
  have hd1 : ∀ n ∈ wrapNames S.name S.wraps, n ∉ rpcNames S := fun n h1 h2 => hdis n h1 n h2 rfl
  have hmem : ∀ n, n ∈ rpcNames S ↔ n = S.addrN ∨ n = bindName S.addrN ∨ n = dialName S.addrN ∨
      n = S.rpcClientN ∨ n = nextOf S.rpcClientN ∨ n = S.serverN := by intro n; simp [rpcNames]
  unfold rpcNames at hrn
  have hbs : S.base = 0 := by simp [Svc.base, hk]
  have hbd : S.binder = .grpcServer (topOf S.name (servers S.name S.wraps)) S.addrN := by simp [Svc.binder, hk]
  have hcallee : S.callee = S.rpcClientN := by simp [Svc.callee, hr]
  have hserver : S.server = S.serverN := by simp [Svc.server, hr]
  have hiface : S.iface = S.addrN := by simp [Svc.iface, hr]
  have hdep : S.deployNames = wrapNames S.name S.wraps ++ rpcNames S := by simp [Svc.deployNames, Svc.coreNames, hk, hr]
  generalize htl : tailOf (nextOf (clientN S.name)) (clients S.name S.wraps) = tl at *
  simp only [List.nodup_cons, List.mem_cons, List.not_mem_nil, or_false, not_or] at hrn
  obtain ⟨⟨a1, a2, a3, a4, a5⟩, ⟨b1, b2, b3, b4⟩, ⟨c1, c2, c3⟩, ⟨d1, d2⟩, g1, _⟩ := hrn
  have s1 : ∀ {a b : Name}, ¬ a = b → ¬ b = a := fun h e => h e.symm
  have htr : tl ∉ rpcNames S := hd1 tl (wrapNames_chain ht)
  rw [hmem] at htr
  simp only [not_or] at htr
  obtain ⟨t1, t2, t3, t4, t5, t6⟩ := htr
  generalize hF : Fam.define (Fam.setPtr _ _) S.serverN _ _ = F
  have hold : ∀ n, n ∉ rpcNames S → n ≠ tl → F.tab n = f.tab n := by
    intro n hn hne
    rw [hmem] at hn
    simp only [not_or] at hn
    obtain ⟨q1, q2, q3, q4, q5, q6⟩ := hn
    rw [← hF]
    simp [Fam.define, Fam.setPtr, Fam.alias, q1, q2, q3, q4, q5, q6, hne]
  have hbase : Base S.name S.ctor S.args F.tab :=
    h.base.same fun n hb => hold n (hd1 n (wrapNames_base hb)) fun e => (ha2 tl ht).1 (by rw [← e]; exact hb)
  refine ⟨hbase.self, hbase.src, fun _ => hbase, fun _ => ?_, fun _ => ?_, fun _ => ?_, fun a x b e => ?_, ⟨_, by rw [← hF]; rfl, ?_, ?_, ?_, ?_⟩, ?_, ?_⟩
  · rw [hcallee]
    refine chain_re (g := f.tab) _ _ h.chain ha1 (fun n hb => ?_) ?_
    · rw [htl]; exact hold n (hd1 n (wrapNames_chain hb))
    · rw [htl, ← hF]; simp [Fam.define, Fam.setPtr, Fam.alias, t1, t2, t3, t4, t5, t6]
  · exact tower_same _ _ h.tower fun n hb => hold n (hd1 n (wrapNames_servers hb)) fun e => (ha2 tl ht).2 (by rw [← e]; exact hb)
  · rw [← hF]
    constructor <;> simp [hbs, hbd, Fam.define, Fam.alias, Fam.setPtr, s1 t1, s1 t2, s1 t3, s1 t4, s1 t5, s1 t6, s1 a1, s1 a2, s1 a3, s1 a4, s1 a5,
      s1 b1, s1 b2, s1 b3, s1 b4, s1 c1, s1 c2, s1 c3, s1 d1, s1 d2, s1 g1, a1, a2, a3, a4, a5, b1, b2, b3, b4, c1, c2, c3, d1, d2, g1]
  · simp at e
  · exact e1
  · exact hiface.symm
  · simp [Svc.under, hserver]
  · simp [Svc.under, hserver]
  · rw [← hF]; simp [Fam.define, Fam.alias, Fam.setPtr, h.kids]
  · intro n hb
    rw [hdep, List.map_nil, List.append_nil]
    by_cases h1 : n ∈ rpcNames S
    · exact List.mem_append_right _ h1
    · by_cases h3 : n = tl
      · rw [h3]; exact List.mem_append_left _ (wrapNames_chain ht)
      · rw [hold n h1 h3] at hb
        exact List.mem_append_left _ (h.names n hb)

theorem under_snoc (S : Svc) (a : List Name) (x : Name) : S.under (a ++ [x]) = subN S.name x := by
  simp [Svc.under]

theorem snoc_split {α : Type} {pl a b : List α} {x y : α} (e : pl ++ [y] = a ++ x :: b) :
    (b = [] ∧ a = pl ∧ x = y) ∨ ∃ b', b = b' ++ [y] ∧ pl = a ++ x :: b' := by
  rcases List.eq_nil_or_concat b with rfl | ⟨b', z, rfl⟩
  · have := List.append_inj' e (by simp)
    exact .inl ⟨rfl, this.1.symm, by simpa using this.2.symm⟩
  · have e' : pl ++ [y] = (a ++ x :: b') ++ [z] := by rw [e]; simp
    have := List.append_inj' e' (by simp)
    have hz : y = z := by simpa using this.2
    subst hz
    exact .inr ⟨b', List.concat_eq_append .., this.1⟩

theorem placed_backend {S : Svc} (hk : S.back = true) (hr : S.rpc = true) (hn : S.deployNames.Nodup) :
    Placed S [] (Fam.empty.step S.name (.backend S.name)) := by
  have hst : Fam.empty.step S.name (.backend S.name) = ((((((((((((((Fam.empty.define S.serverN (.level 2) (.container S.addrN)).alias
      (dstN S.name) S.serverN).define (ctrVisN S.name) .app .visibility).define (ctrCheckN S.name) (.level 2) (.check (ctrVisN S.name)
      S.serverN)).alias (dstN S.name) (ctrCheckN S.name)).alias (srcN S.name) (dstN S.name)).define S.name (.level 0) .ptr).define S.addrN .app
      .addr).define (bindName S.addrN) .app .bind).define (dialName S.addrN) .app .dial).alias (srcN S.name) S.serverN).alias (srcN S.name)
      S.addrN).addSrc ⟨S.name, [], srcN S.name, srcN S.name, S.addrN, S.serverN, [S.serverN, dstN S.name]⟩ S.rpcClientN .grpcClient).1) := by
    simp only [Fam.step, Svc.serverN, Svc.addrN, Svc.rpcClientN, hk, if_true, ctrN, ctrVisN, ctrCheckN, ctrAddrN, dstN, srcN, clientN]
  rw [hst]
  clear hst
  have hdep : S.deployNames = [S.name, dstN S.name, srcN S.name, ctrVisN S.name, ctrCheckN S.name, S.addrN, bindName S.addrN,
      dialName S.addrN, S.rpcClientN, nextOf S.rpcClientN, S.serverN] := by
    simp [Svc.deployNames, Svc.coreNames, rpcNames, hk, hr]
  have hcl : S.rpcClientN = clientN S.name := by simp [Svc.rpcClientN, hk]
  have hbs : S.base = 2 := by simp [Svc.base, hk]
  have hbd : S.binder = .container S.addrN := by simp [Svc.binder, hk]
  have hserver : S.server = S.serverN := by simp [Svc.server, hr]
  have hiface : S.iface = S.addrN := by simp [Svc.iface, hr]
  rw [hdep] at hn
  simp only [Fam.addSrc]
  simp only [List.nodup_cons, List.mem_cons, List.not_mem_nil, or_false, not_or] at hn
  obtain ⟨⟨a1, a2, a3, a4, a5, a6, a7, a8, a9, a10⟩, ⟨b1, b2, b3, b4, b5, b6, b7, b8, b9⟩, ⟨c1, c2, c3, c4, c5, c6, c7, c8⟩,
    ⟨d1, d2, d3, d4, d5, d6, d7⟩, ⟨g1, g2, g3, g4, g5, g6⟩, ⟨i1, i2, i3, i4, i5⟩, ⟨j1, j2, j3, j4⟩, ⟨k1, k2, k3⟩, ⟨l1, l2⟩, m1, _⟩ := hn
  have s1 : ∀ {a b : Name}, ¬ a = b → ¬ b = a := fun h e => h e.symm
  refine ⟨?_, ?_, fun e => ?_, fun e => ?_, fun e => ?_, fun _ => ?_, fun a x b e => ?_, ⟨_, rfl, rfl, ?_, ?_, ?_⟩, ?_, ?_⟩
  · simp [Fam.define, Fam.alias, Fam.setPtr, a1, a2, a3, a4, a5, a6, a7, a8, a9, a10]
  · rw [← hcl]
    simp [Fam.define, Fam.alias, Fam.setPtr, s1 a2, c1, c2, c3, c4, c5, c6, c7, c8]
  · rw [hk] at e; cases e
  · rw [hk] at e; cases e
  · rw [hk] at e; cases e
  · constructor <;> simp [hbs, hbd, Fam.define, Fam.alias, Fam.setPtr, s1 a5, s1 a6, s1 a7, s1 a8, s1 a9, s1 a10, s1 b4, s1 b5, s1 b6, s1 b7,
      s1 b8, s1 b9, s1 c3, s1 c4, s1 c5, s1 c6, s1 c7, s1 c8, s1 d2, s1 d3, s1 d4, s1 d5, s1 d6, s1 d7, s1 g1, s1 g2, s1 g3, s1 g4, s1 g5, s1 g6,
      i1, i2, i3, i4, i5, j1, j2, j3, j4, k1, k2, k3, l1, l2, m1, s1 i1, s1 i2, s1 i3, s1 i4, s1 i5, s1 j1, s1 j2, s1 j3, s1 j4, s1 k1, s1 k2,
      s1 k3, s1 l1, s1 l2, s1 m1]
  · simp at e
  · exact hiface.symm
  · simp [Svc.under, hserver]
  · simp [Svc.under, hserver]
  · simp [Fam.define, Fam.alias, Fam.setPtr, Fam.empty]
  · intro n hb
    rw [hdep, List.map_nil, List.append_nil]
    simp only [Fam.define, Fam.alias, Fam.setPtr, Fam.empty] at hb
    simp only [List.mem_cons, List.not_mem_nil, or_false]
    refine Classical.byContradiction fun hno => hb ?_
    simp only [not_or] at hno
    obtain ⟨q1, q2, q3, q4, q5, q6, q7, q8, q9, q10, q11⟩ := hno
    simp only [q1, q2, q3, q4, q5, q6, q7, q8, q9, q10, q11, if_false]

theorem self_core (S : Svc) : S.name ∈ S.coreNames := by
  unfold Svc.coreNames
  split
  · simp
  · exact wrapNames_base (by simp [baseNames])

theorem src_core (S : Svc) : srcN S.name ∈ S.coreNames := by
  unfold Svc.coreNames
  split
  · simp
  · exact wrapNames_base (by simp [baseNames])

theorem placed_place {S : Svc} {pl : List Name} {f : Fam} {y : Name} (h : Placed S pl f)
    (hn : (S.deployNames ++ (pl ++ [y]).map (subN S.name)).Nodup) :
    Placed S (pl ++ [y]) (f.step S.name (.addTo (S.base + 1 + pl.length) y S.name)) := by
  obtain ⟨p, hp, e1, e3, e4, e5⟩ := h.ptr
  rw [List.map_append, ← List.append_assoc, List.map_singleton, List.nodup_append] at hn
  obtain ⟨hw, _, hdis⟩ := hn
  have hst : f.step S.name (.addTo (S.base + 1 + pl.length) y S.name) = { (f.setPtr ⟨p.name, p.srcModifiers, p.srcHead, p.srcTail, p.interfaceNode,
      subN S.name y, subN S.name y :: p.dstModifiers⟩).define (subN S.name y) (.level (S.base + 1 + pl.length)) (.enter y p.dstHead) with
      kids := f.kids ++ [(y, p.dstHead)] } := by
    simp only [Fam.step, hp, subN]
    rfl
  rw [hst, e4]
  clear hst
  have hm : ∀ n, n ∈ S.deployNames ++ pl.map (subN S.name) → n ≠ subN S.name y := fun n h1 => hdis n h1 _ (by simp)
  generalize hF : Fam.mk _ _ _ = F
  have hold : ∀ n ∈ S.deployNames ++ pl.map (subN S.name), F.tab n = f.tab n := by
    intro n hn
    rw [← hF]
    simp [Fam.define, Fam.setPtr, hm n hn]
  have hnew : F.tab (subN S.name y) = some (.node (.level (S.base + pl.length + 1)) (some (.enter y (S.under pl)))) := by
    rw [← hF]
    simp [Fam.define]
    omega
  have hkids : F.kids = f.kids ++ [(y, S.under pl)] := by rw [← hF]
  have hptr : F.ptr = some ⟨p.name, p.srcModifiers, p.srcHead, p.srcTail, p.interfaceNode, subN S.name y,
      subN S.name y :: p.dstModifiers⟩ := by rw [← hF]; rfl
  have hd : ∀ n ∈ S.deployNames, F.tab n = f.tab n := fun n hn => hold n (List.mem_append_left _ hn)
  have hcn : ∀ n ∈ S.coreNames, F.tab n = f.tab n := fun n hn => hd n (List.mem_append_left _ hn)
  have hwn : S.back = false → ∀ n ∈ wrapNames S.name S.wraps, F.tab n = f.tab n := fun hk n hn =>
    hcn n (by simp only [Svc.coreNames, hk, Bool.false_eq_true, if_false]; exact hn)
  refine ⟨?_, ?_, fun hk => ?_, fun hk => ?_, fun hk => ?_, fun hr => ?_, ?_, ⟨_, hptr, e1, e3, ?_, ?_⟩, ?_, ?_⟩
  · exact (hcn _ (self_core S)).trans h.self
  · exact (hcn _ (src_core S)).trans h.src
  · exact (h.base hk).same fun n hb => hwn hk n (wrapNames_base hb)
  · exact chain_same _ _ (h.chain hk) fun n hb => hwn hk n (wrapNames_chain hb)
  · exact tower_same _ _ (h.tower hk) fun n hb => hwn hk n (wrapNames_servers hb)
  · exact (h.rpc hr).same fun n hb => hd n (List.mem_append_right _ (by simp [hr, hb]))
  · intro a x b e
    rcases snoc_split e with ⟨_, rfl, rfl⟩ | ⟨b', _, e'⟩
    · exact hnew
    · rw [hold _ (List.mem_append_right _ (by rw [e']; simp))]
      exact h.enters a x b' e'
  · rw [under_snoc]
  · rw [under_snoc]; rfl
  · intro x c
    rw [hkids, List.mem_append, h.kids, List.mem_singleton, Prod.mk.injEq]
    constructor
    · rintro (⟨a, b, e, hc⟩ | ⟨rfl, rfl⟩)
      · exact ⟨a, b ++ [y], by rw [e]; simp, hc⟩
      · exact ⟨pl, [], rfl, rfl⟩
    · rintro ⟨a, b, e, hc⟩
      rcases snoc_split e with ⟨_, rfl, rfl⟩ | ⟨b', _, e'⟩
      · exact .inr ⟨rfl, hc⟩
      · exact .inl ⟨a, b', e', hc⟩
  · intro n hb
    rw [List.map_append, ← List.append_assoc]
    by_cases e : n = subN S.name y
    · exact List.mem_append_right _ (by simp [e])
    · refine List.mem_append_left _ (h.names n ?_)
      rw [← hF] at hb
      simpa [Fam.define, Fam.setPtr, e] using hb

theorem placeDecls_snoc (T : Name) : ∀ (pl : List Name) (l : Nat) (x : Name),
    placeDecls T l (pl ++ [x]) = placeDecls T l pl ++ [.addTo (l + pl.length) x T]
  | [], l, x => rfl
  | y :: pl, l, x => by
    simp only [List.cons_append, placeDecls, placeDecls_snoc T pl (l + 1) x, List.length_cons]
    rw [show l + 1 + pl.length = l + (pl.length + 1) by omega]

theorem names_eq (S : Svc) : S.names = S.deployNames ++ S.places.map (subN S.name) := rfl

theorem placed_all (S : Svc) (hn : S.names.Nodup) (hk : S.back = true → S.rpc = true) :
    Placed S S.places (S.decls.foldl (Fam.step S.name) Fam.empty) := by
  rw [names_eq] at hn
  unfold Svc.decls
  rw [List.foldl_append]
  generalize hpl : S.places = pl at hn
  have hdep := nodup_prefix hn
  have h0 : Placed S [] ((if S.back then [.backend S.name] else .service S.name S.ctor S.args :: S.wraps.map (wrapDecl S.name) ++
      if S.rpc then [.rpc S.proto S.name] else []).foldl (Fam.step S.name) Fam.empty) := by
    cases hb : S.back with
    | true => exact placed_backend hb (hk hb) hdep
    | false =>
      simp only [Bool.false_eq_true, if_false]
      rw [List.foldl_append]
      have hwr : (wrapNames S.name S.wraps).Nodup := by
        have := nodup_prefix hdep
        simpa only [Svc.coreNames, hb, Bool.false_eq_true, if_false] using this
      have hW := wrapped_all S.name S.ctor S.args S.wraps hwr
      cases hr : S.rpc with
      | false => exact placed_local hb hr hW
      | true => exact placed_rpc hb hr hW hdep
  generalize hf : (if S.back then [.backend S.name] else .service S.name S.ctor S.args :: S.wraps.map (wrapDecl S.name) ++
      if S.rpc then [.rpc S.proto S.name] else []).foldl (Fam.step S.name) Fam.empty = f at h0 ⊢
  clear hpl hf hdep
  induction pl using Wiring.concat_induction with
  | nil => exact h0
  | append pl y ih =>
    rw [placeDecls_snoc, List.foldl_append]
    refine placed_place (ih ?_) hn
    rw [List.map_append, ← List.append_assoc] at hn
    exact nodup_prefix hn

end Verif.Compile
