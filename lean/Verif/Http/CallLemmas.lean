import Verif.Http.JsonLemmas
import Verif.Http.Query
/- Lemmas about calls. -/
namespace Verif.Http

theorem cleanAll_iff (valid : Bytes → Bool) (js : List Json) : Json.cleanAll valid js ↔ ∀ j ∈ js, j.clean valid := by
  induction js with
  | nil => simp [Json.cleanAll]
  | cons j js ih => simp [Json.cleanAll, ih]

mutual
/-- The JSON of a value is valid UTF-8. -/
theorem encode_clean (lib : Lib) : ∀ (t : Ty) (v : Val) (j : Json), Declared lib.valid t → encode lib t v = some j →
    j.clean lib.valid
  | .bool, v, j, _, h => by
    cases v <;> simp [encode] at h
    subst h; simp [Json.clean]
  | .int _ _, v, j, _, h => by
    cases v <;> simp [encode] at h
    subst h; simp [Json.clean]
  | .float, v, j, _, h => by
    cases v with
    | float f =>
      cases f <;> simp [encode] at h
      subst h; simp [Json.clean]
    | _ => simp [encode] at h
  | .string, v, j, _, h => by
    cases v <;> simp [encode] at h
    subst h; simp [Json.clean, lib.valid_replace]
  | .slice t, v, j, hd, h => by
    cases v <;> simp [encode] at h
    · subst h; simp [Json.clean]
    · obtain ⟨js, h1, rfl⟩ := h
      simp only [Declared] at hd
      simp only [Json.clean, cleanAll_iff]
      intro j hj
      obtain ⟨v, _, he⟩ := mapM_mem _ _ _ h1 j hj
      exact encode_clean lib t v j hd he
  | .map _ t, v, j, hd, h => by
    cases v <;> simp [encode] at h
    · subst h; simp [Json.clean]
    · obtain ⟨js, h1, rfl⟩ := h
      simp only [Declared] at hd
      simp only [Json.clean, cleanAll_iff]
      refine ⟨?_, ?_⟩
      · intro k hk
        obtain ⟨k0, _, rfl⟩ := List.mem_map.1 hk
        cases k0 <;> simp [encodeKey, JKey.clean, lib.valid_replace]
      · intro j hj
        obtain ⟨v, _, he⟩ := mapM_mem _ _ _ h1 j hj
        exact encode_clean lib t v j hd he
  | .ptr t, v, j, hd, h => by
    cases v <;> simp [encode] at h
    · subst h; simp [Json.clean]
    · exact encode_clean lib t _ j (by simpa only [Declared] using hd) h
  | .struct fs ts, v, j, hd, h => by
    cases v <;> simp [encode] at h
    obtain ⟨ps, h1, rfl⟩ := h
    simp only [Declared] at hd
    have := fields_clean lib fs ts _ fs ps hd.2 h1
    simp only [Json.clean, cleanAll_iff]
    refine ⟨?_, ?_⟩
    · intro k hk
      obtain ⟨p, hp, rfl⟩ := List.mem_map.1 hk
      obtain ⟨f, hf, _, he⟩ := encodeFields_keys lib fs _ _ _ _ h1 p hp
      simp only [JKey.clean]
      rw [he, key_eq]
      exact hd.1 f hf
    · intro j hj
      obtain ⟨p, hp, rfl⟩ := List.mem_map.1 hj
      exact this p hp
  | .defined t, v, j, hd, h => by
    exact encode_clean lib t v j (by simpa only [Declared] using hd) (by simpa only [encode] using h)
  | .opaque, v, j, _, h => by simp [encode] at h
theorem fields_clean (lib : Lib) (all : List Field) : ∀ (ts : List Ty) (vs : List Val) (fs : List Field)
    (ps : List (Bytes × Json)), DeclaredAll lib.valid ts → encodeFields lib all fs ts vs = some ps →
    ∀ p ∈ ps, p.2.clean lib.valid
  | [], vs, fs, ps, _, h => by
    cases fs <;> simp [encodeFields] at h <;> subst h <;> simp
  | t :: ts, vs, fs, ps, hd, h => by
    simp only [DeclaredAll] at hd
    cases fs with
    | nil => simp [encodeFields] at h; subst h; simp
    | cons f fs =>
      cases vs with
      | nil => simp [encodeFields] at h; subst h; simp
      | cons v vs =>
        simp only [encodeFields] at h
        split at h
        · cases he : encode lib t v with
          | none => simp [he] at h
          | some j =>
            simp only [he, Option.map_eq_some_iff] at h
            obtain ⟨ps', h1, rfl⟩ := h
            intro p hp
            rcases List.mem_cons.1 hp with rfl | hp
            · exact encode_clean lib t v j hd.1 he
            · exact fields_clean lib all ts vs fs ps' hd.2 h1 p hp
        · exact fields_clean lib all ts vs fs ps hd.2 h
end

theorem print_ne_nil (lib : Lib) (j : Json) (h : j.clean lib.valid) : lib.print j ≠ [] := by
  intro hn
  have := lib.parse_print j h
  rw [hn, lib.parse_nil] at this
  cases this

theorem isString_iff (t : Ty) : t.isString = true ↔ t = .string := by
  cases t <;> simp [Ty.isString]

/-- One argument. -/
theorem arg_iff (lib : Lib) (t : Ty) (v : Val) (ht : HasTy t v) (hd : Declared lib.valid t) :
    (∃ s, argText lib t v = some s ∧ parseArg lib t s = some v) ↔ ArgFaithful lib.valid t v := by
  unfold ArgFaithful argText parseArg
  by_cases hs : t.isString = true
  · rw [isString_iff] at hs
    subst hs
    cases v <;> simp [HasTy] at ht
    simp [Ty.isString]
  · have hs' : t ≠ .string := fun h => hs ((isString_iff t).2 h)
    simp only [hs, hs', if_false, false_or, Bool.false_eq_true, ← survives_iff lib t v ht, Survives, Option.map_eq_some_iff]
    constructor
    · rintro ⟨s, ⟨j, h1, rfl⟩, h2⟩
      have hc := encode_clean lib t v j hd h1
      rw [if_neg (print_ne_nil lib j hc), lib.parse_print j hc] at h2
      exact ⟨j, h1, h2⟩
    · rintro ⟨j, h1, h2⟩
      have hc := encode_clean lib t v j hd h1
      refine ⟨_, ⟨j, h1, rfl⟩, ?_⟩
      rw [if_neg (print_ne_nil lib j hc), lib.parse_print j hc]
      exact h2

theorem requestVals_names (lib : Lib) : ∀ (args : List (Bytes × Ty)) (vs : List Val) (vals : List (Bytes × Bytes)),
    args.length = vs.length → requestVals lib args vs = some vals → vals.map (·.1) = args.map (·.1) := by
  intro args
  induction args with
  | nil => intro vs vals _ h; simp [requestVals] at h; subst h; rfl
  | cons a args ih =>
    intro vs vals hl h
    cases vs with
    | nil => simp at hl
    | cons v vs =>
      obtain ⟨n, t⟩ := a
      simp only [requestVals] at h
      cases he : argText lib t v with
      | none => simp [he] at h
      | some s =>
        simp only [he, Option.map_eq_some_iff] at h
        obtain ⟨vals', h1, rfl⟩ := h
        simp [ih vs vals' (by simpa using hl) h1]

theorem hasTys_length : ∀ (ts : List Ty) (vs : List Val), HasTys ts vs → ts.length = vs.length
  | [], [], _ => rfl
  | _ :: ts, _ :: vs, h => by simp only [HasTys] at h; simp [hasTys_length ts vs h.2]
  | [], _ :: _, h => by simp [HasTys] at h
  | _ :: _, [], h => by simp [HasTys] at h

/-- All arguments: `pre` are the values of the arguments before. -/
theorem args_iff (lib : Lib) : ∀ (args : List (Bytes × Ty)) (vs : List Val) (pre : List (Bytes × Bytes)),
    HasTys (args.map (·.2)) vs → (∀ a ∈ args, Declared lib.valid a.2) →
    ((pre.map (·.1)) ++ (args.map (·.1))).Nodup →
    ((∃ vals, requestVals lib args vs = some vals ∧
      (args.mapM fun a => parseArg lib a.2 (((pre ++ vals).lookup a.1).getD [])) = some vs) ↔
      ArgsFaithful lib.valid (args.map (·.2)) vs) := by
  intro args
  induction args with
  | nil =>
    intro vs pre h _ _
    cases vs with
    | nil => simp [requestVals, ArgsFaithful]
    | cons _ _ => simp [HasTys] at h
  | cons a args ih =>
    intro vs pre h hd hn
    cases vs with
    | nil => simp [HasTys] at h
    | cons v vs =>
      obtain ⟨n, t⟩ := a
      simp only [List.map_cons, HasTys] at h
      have ha := arg_iff lib t v h.1 (hd (n, t) (by simp))
      have hnp : n ∉ pre.map (·.1) := by
        intro hm
        rw [List.nodup_append] at hn
        exact hn.2.2 n hm n (by simp) rfl
      have hlook : ∀ (s : Bytes) (vals : List (Bytes × Bytes)), (pre ++ (n, s) :: vals).lookup n = some s := by
        intro s vals
        clear ih hn
        induction pre with
        | nil => simp
        | cons p pre ih =>
          simp only [List.map_cons, List.mem_cons, not_or] at hnp
          rw [List.cons_append, List.lookup_cons, beq_eq_false_iff_ne.2 hnp.1]
          exact ih hnp.2
      have ih' := fun s => ih vs (pre ++ [(n, s)]) h.2 (fun a ha => hd a (by simp [ha])) (by simpa using hn)
      have hassoc : ∀ (s : Bytes) (vals : List (Bytes × Bytes)), pre ++ [(n, s)] ++ vals = pre ++ (n, s) :: vals := by
        intro s vals; simp
      simp only [requestVals, List.map_cons, ArgsFaithful]
      rw [← ha]
      constructor
      · rintro ⟨vals, h1, h2⟩
        cases he : argText lib t v with
        | none => simp [he] at h1
        | some s =>
          simp only [he, Option.map_eq_some_iff] at h1
          obtain ⟨vals', h1, rfl⟩ := h1
          obtain ⟨w, ws, e1, e2, e3⟩ := (mapM_cons_some _ _ _ _).1 h2
          obtain ⟨rfl, rfl⟩ := List.cons.inj e3
          simp only [hlook, Option.getD_some] at e1
          exact ⟨⟨s, rfl, e1⟩, (ih' s).1 ⟨vals', h1, by rw [hassoc]; exact e2⟩⟩
      · rintro ⟨⟨s, he, hp⟩, hf⟩
        obtain ⟨vals', h1, h2⟩ := (ih' s).2 hf
        rw [hassoc] at h2
        refine ⟨(n, s) :: vals', by simp only [he, h1, Option.map_some], (mapM_cons_some _ _ _ _).2 ⟨v, vs, ?_, h2, rfl⟩⟩
        simp only [hlook, Option.getD_some]
        exact hp

/-- The router finds the method. -/
theorem find_method {valid : Bytes → Bool} {ms : List Method} (hi : Interface valid ms) {m : Method} (hm : m ∈ ms) :
    (ms.find? fun x => (47 : Byte) :: x.name = (47 : Byte) :: m.name) = some m := by
  have hn := hi.names
  clear hi
  induction ms with
  | nil => cases hm
  | cons x ms ih =>
    simp only [List.map_cons, List.nodup_cons] at hn
    by_cases hx : x.name = m.name
    · rcases List.mem_cons.1 hm with rfl | hm
      · simp
      · exact absurd (List.mem_map.2 ⟨m, hm, hx.symm⟩) hn.1
    · rcases List.mem_cons.1 hm with rfl | hm
      · exact absurd rfl hx
      · rw [List.find?_cons_of_neg (by simpa using hx)]
        exact ih hm hn.2

/-- The server hands a request for a method to its handler, with a query in which every name has the value that
the client gave. -/
theorem serve_request {valid : Bytes → Bool} (lib : Lib) (svc : Service) {ms : List Method} (hi : Interface valid ms)
    {m : Method} (hm : m ∈ ms) (vals : List (Bytes × Bytes)) (n : Nat) :
    serve lib svc ms n (target (47 :: m.name) (encodeValues vals)) =
      handler lib svc n m (parseQuery (encodeValues vals)) := by
  have hid : ∀ b ∈ (47 : Byte) :: m.name, b ≠ 63 ∧ b ≠ 35 := by
    intro b hb
    rcases List.mem_cons.1 hb with rfl | hb
    · decide
    · exact ident_clean b (hi.ident m hm b hb)
  have hp := parseTarget_target (47 :: m.name) (encodeValues vals) (fun h => (hid _ h).1 rfl) (fun h => (hid _ h).2 rfl)
    (encodeValues_no_hash vals)
  unfold serve
  rw [hp]
  simp only [find_method hi hm]

/-- A request's handling, when the arguments have JSON. -/
theorem handler_args {valid : Bytes → Bool} (lib : Lib) {ms : List Method} (hi : Interface valid ms)
    {m : Method} (hm : m ∈ ms) (vs : List Val) (hl : m.args.length = vs.length) (vals : List (Bytes × Bytes))
    (h : requestVals lib m.args vs = some vals) :
    (m.args.mapM fun a => parseArg lib a.2 (queryGet (parseQuery (encodeValues vals)) a.1)) =
      m.args.mapM fun a => parseArg lib a.2 ((([] ++ vals).lookup a.1).getD []) := by
  have hn : (vals.map (·.1)).Nodup := by
    rw [requestVals_names lib _ _ _ hl h]; exact hi.args m hm
  congr 1
  funext a
  rw [query_get vals hn, List.nil_append]

/-! ### Results -/

theorem retFields_length : ∀ (ts : List Ty) (i : Nat), (retFields i ts).length = ts.length
  | [], _ => rfl
  | _ :: ts, i => by simp [retFields, retFields_length ts (i + 1)]

/-- The name of the response's field `i`. -/
def retName (i : Nat) : Bytes := 82 :: 101 :: 116 :: (toString i).toList.map (fun c => Fin.ofNat 256 c.toNat)

theorem retFields_get : ∀ (ts : List Ty) (n i : Nat) (f : Field), (retFields n ts)[i]? = some f →
    f = { name := retName (n + i) }
  | [], _, i, f, h => by simp [retFields] at h
  | _ :: ts, n, 0, f, h => by
    simp only [retFields, List.getElem?_cons_zero, Option.some.injEq] at h
    rw [← h]; rfl
  | _ :: ts, n, i + 1, f, h => by
    simp only [retFields, List.getElem?_cons_succ] at h
    rw [retFields_get ts (n + 1) i f h]
    congr 2; omega

theorem digits_ascii (n : Nat) : ∀ c ∈ (toString n).toList, c.isDigit = true := by
  intro c hc
  have : (toString n).toList = Nat.toDigits 10 n := by
    simp [toString, Nat.repr]
  rw [this] at hc
  exact Nat.isDigit_of_mem_toDigits (by omega) (by omega) hc

theorem digit_toNat {c : Char} (h : c.isDigit = true) : c.toNat < 58 := by
  simp only [Char.isDigit, Bool.and_eq_true, decide_eq_true_eq] at h
  have := UInt32.le_iff_toNat_le.1 h.2
  have h9 : ('9'.val).toNat = 57 := rfl
  have : c.toNat ≤ 57 := by rw [← h9]; exact this
  omega

theorem retName_inj {i j : Nat} (h : retName i = retName j) : i = j := by
  simp only [retName, List.cons.injEq, true_and] at h
  have hs : (toString i).toList = (toString j).toList := by
    have hi := digits_ascii i
    have hj := digits_ascii j
    generalize (toString i).toList = a at h hi
    generalize (toString j).toList = b at h hj
    induction a generalizing b with
    | nil => cases b with
      | nil => rfl
      | cons _ _ => simp at h
    | cons x a ih =>
      cases b with
      | nil => simp at h
      | cons y b =>
        simp only [List.map_cons, List.cons.injEq] at h
        have hx := digit_toNat (hi x (by simp))
        have hy := digit_toNat (hj y (by simp))
        have hv := congrArg Fin.val h.1
        simp only [Fin.ofNat] at hv
        have hxy : x.toNat = y.toNat := by omega
        have : x = y := Char.ext (UInt32.toNat.inj hxy)
        rw [this, ih (fun c hc => hi c (by simp [hc])) b h.2 (fun c hc => hj c (by simp [hc]))]
  have hd : ∀ n : Nat, (toString n).toList = Nat.toDigits 10 n := fun n => by simp [toString, Nat.repr]
  rw [hd, hd] at hs
  rw [← Nat.ofDigitChars_ten_toDigits (n := i), ← Nat.ofDigitChars_ten_toDigits (n := j), hs]

theorem retName_ascii (i : Nat) : ∀ b ∈ retName i, b.val < 128 := by
  intro b hb
  simp only [retName, List.mem_cons] at hb
  rcases hb with rfl | rfl | rfl | hb
  · decide
  · decide
  · decide
  · obtain ⟨c, hc, rfl⟩ := List.mem_map.1 hb
    have := digit_toNat (digits_ascii i c hc)
    simp only [Fin.ofNat]
    omega

theorem retFields_visible (ts : List Ty) (i : Nat) (h : i < ts.length) : Visible (retFields 0 ts) i := by
  obtain ⟨f, hf⟩ : ∃ f, (retFields 0 ts)[i]? = some f :=
    ⟨_, List.getElem?_eq_getElem (by rw [retFields_length]; exact h)⟩
  have hff := retFields_get ts 0 i f hf
  refine ⟨f, hf, by rw [hff], by rw [hff], ?_⟩
  intro j g hj hne _ _ hk
  have hg := retFields_get ts 0 j g hj
  rw [hff, hg] at hk
  simp only [jsonName] at hk
  have := retName_inj hk
  omega

theorem faithful_rets (valid : Bytes → Bool) (all : List Field) : ∀ (ts : List Ty) (vs : List Val) (i : Nat),
    (∀ k, i ≤ k → k < i + ts.length → Visible all k ∧ ∀ f, all[k]? = some f → f.omitempty = false) →
    (FaithfulFields valid all i ts vs ↔ RetsFaithful valid ts vs)
  | [], vs, i, _ => by simp [FaithfulFields, RetsFaithful]
  | t :: ts, [], i, _ => by simp [FaithfulFields, RetsFaithful]
  | t :: ts, v :: vs, i, h => by
    have hw : Written all i v := by
      obtain ⟨h1, h2⟩ := h i (by omega) (by simp)
      refine ⟨h1, ?_⟩
      rintro ⟨⟨f, hf, ho⟩, _⟩
      rw [h2 f hf] at ho; cases ho
    have ih := faithful_rets valid all ts vs (i + 1) (fun k h1 h2 => h k (by omega) (by simp; omega))
    simp only [FaithfulFields, RetsFaithful, hw, ih]
    simp

/-- The results that survive. -/
theorem response_iff (lib : Lib) (m : Method) (rets : List Val) (ht : HasTys m.rets rets) :
    Survives lib (responseTy m) (.struct rets) ↔ RetsFaithful lib.valid m.rets rets := by
  unfold responseTy
  rw [survives_iff lib _ _ (by simp only [HasTy]; exact ⟨retFields_length _ _, ht⟩)]
  simp only [Faithful]
  apply faithful_rets
  intro k _ hk
  refine ⟨retFields_visible _ _ (by simpa using hk), ?_⟩
  intro f hf
  rw [retFields_get _ _ _ _ hf]

theorem response_declared {valid : Bytes → Bool} {ms : List Method} (hi : Interface valid ms) {m : Method} (hm : m ∈ ms) :
    Declared valid (responseTy m) := by
  simp only [responseTy, Declared]
  refine ⟨?_, hi.declaredRets m hm⟩
  intro f hf
  obtain ⟨i, h⟩ := List.getElem?_of_mem hf
  rw [retFields_get _ _ _ _ h]
  exact hi.ascii _ (retName_ascii _)

/-! ### Calls -/

/-- What the server makes of the values of the arguments. -/
def received (lib : Lib) (m : Method) (vals : List (Bytes × Bytes)) : Option (List Val) :=
  m.args.mapM fun a => parseArg lib a.2 ((vals.lookup a.1).getD [])

/-- How the server answers when the service ends in some way. -/
def answer (lib : Lib) (m : Method) : Outcome → Reply
  | .panic => .closed
  | .err msg => .response 500 msg
  | .ok rets =>
    match encode lib (responseTy m) (.struct rets) with
    | none => .response 200 []
    | some j => .response 200 (lib.print j)

/-- The answer of the server to a request. -/
def respond (lib : Lib) (svc : Service) (m : Method) (vals : List (Bytes × Bytes)) (n : Nat) : List Run × Reply :=
  match received lib m vals with
  | none => ([], .response 500 [])
  | some vs => ([⟨m.name, .background, vs⟩], answer lib m (svc n m.name .background vs))

theorem serve_eq {valid : Bytes → Bool} (lib : Lib) (svc : Service) {ms : List Method} (hi : Interface valid ms)
    {m : Method} (hm : m ∈ ms) (vs : List Val) (hl : m.args.length = vs.length) (vals : List (Bytes × Bytes))
    (h : requestVals lib m.args vs = some vals) (n : Nat) :
    serve lib svc ms n (target (47 :: m.name) (encodeValues vals)) = respond lib svc m vals n := by
  rw [serve_request lib svc hi hm]
  unfold handler respond received
  rw [handler_args lib hi hm vs hl vals h, List.nil_append]
  cases (m.args.mapM fun a => parseArg lib a.2 ((vals.lookup a.1).getD [])) with
  | none => rfl
  | some ws =>
    simp only [answer]
    cases svc n m.name .background ws <;> rfl

theorem send_congr (srv : Nat → Bytes → List Run × Reply) (t : Bytes) (f : Nat → List Run × Reply)
    (h : ∀ n, srv n t = f n) : ∀ (net : List Attempt) (n : Nat), send srv t n net = send (fun n _ => f n) [] n net
  | [], _ => rfl
  | .refused :: _, _ => rfl
  | .broken r :: as, n => by simp only [send, h, send_congr srv t f h as]
  | .delivered r :: as, n => by simp only [send, h, send_congr srv t f h as]

/-- A call, step by step. -/
theorem call_eq {valid : Bytes → Bool} (lib : Lib) (svc : Service) {ms : List Method} (hi : Interface valid ms)
    {m : Method} (hm : m ∈ ms) (vs : List Val) (hl : m.args.length = vs.length) (net : List Attempt) (ctx : Ctx) :
    (requestVals lib m.args vs = none ∧ call lib svc ms net m ctx vs = ([], .err .argument)) ∨
    ∃ vals, requestVals lib m.args vs = some vals ∧
      (call lib svc ms net m ctx vs).1 = (send (fun n _ => respond lib svc m vals n) [] 0 net).1 ∧
      (call lib svc ms net m ctx vs).2 =
        match (send (fun n _ => respond lib svc m vals n) [] 0 net).2 with
        | none => .err .network
        | some reply => readReply lib m reply := by
  unfold call request
  cases h : requestVals lib m.args vs with
  | none => left; simp
  | some vals =>
    right
    refine ⟨vals, rfl, ?_⟩
    simp only [Option.map_some]
    rw [send_congr _ _ _ (serve_eq lib svc hi hm vs hl vals h) net 0]
    exact ⟨rfl, rfl⟩

/-- What the client makes of the answer to a service that succeeded. -/
theorem read_ok_iff (lib : Lib) {ms : List Method} (hi : Interface lib.valid ms) {m : Method} (hm : m ∈ ms)
    (rets : List Val) (ht : HasTys m.rets rets) :
    readReply lib m (answer lib m (.ok rets)) = .ok rets ↔ RetsFaithful lib.valid m.rets rets := by
  rw [← response_iff lib m rets ht]
  unfold Survives
  simp only [answer]
  cases he : encode lib (responseTy m) (.struct rets) with
  | none => simp [readReply, lib.parse_nil]
  | some j =>
    have hc := encode_clean lib _ _ _ (response_declared hi hm) he
    simp only [readReply, lib.parse_print j hc, Option.bind_some]
    rw [if_pos (by decide)]
    simp only [Option.some.injEq, exists_eq_left']
    constructor
    · intro h
      split at h
      · rename_i r hr
        cases h; exact hr
      · cases h
    · intro h
      rw [h]

/-- A successful result comes from a successful service. -/
theorem read_ok {lib : Lib} {m : Method} {o : Outcome} {rets : List Val} (h : readReply lib m (answer lib m o) = .ok rets) :
    ∃ r, o = .ok r := by
  cases o with
  | ok r => exact ⟨r, rfl⟩
  | err msg => simp [answer, readReply] at h
  | panic => simp [answer, readReply] at h

/-- The executions of a call, and the reply. -/
theorem send_runs (lib : Lib) (svc : Service) (m : Method) (vals : List (Bytes × Bytes)) (ws : List Val)
    (h : received lib m vals = some ws) : ∀ (net : List Attempt) (n : Nat),
    (∃ k, (send (fun n _ => respond lib svc m vals n) [] n net).1 = List.replicate k ⟨m.name, .background, ws⟩ ∧
      k ≤ net.length ∧
      ((∀ a ∈ net, a ≠ .broken true ∧ a ≠ .delivered true) → k ≤ 1) ∧
      ((∀ a ∈ net, a ≠ .broken true) → (∀ i, svc i m.name .background ws ≠ .panic) → k ≤ 1) ∧
      ∀ reply, (send (fun n _ => respond lib svc m vals n) [] n net).2 = some reply →
        0 < k ∧ reply = answer lib m (svc (n + k - 1) m.name .background ws) ∧ reply ≠ .closed)
  | [], n => ⟨0, by simp [send]⟩
  | .refused :: as, n => ⟨0, by simp [send]⟩
  | .broken r :: as, n => by
    cases r with
    | false => exact ⟨1, by simp [send, respond, h]⟩
    | true =>
      obtain ⟨k, h1, h2, h3, h4, h5⟩ := send_runs lib svc m vals ws h as (n + 1)
      refine ⟨k + 1, ?_, by simpa using h2, ?_, ?_, ?_⟩
      · simp only [send, respond, h, if_true, List.length_singleton] at h1 ⊢
        rw [h1]; rfl
      · intro hn; exact absurd rfl (hn _ (by simp)).1
      · intro hn; exact absurd rfl (hn _ (by simp))
      · intro reply hr
        have := h5 reply (by simpa [send, respond, h] using hr)
        refine ⟨by omega, ?_, this.2.2⟩
        rw [this.2.1]; congr 2; omega
  | .delivered r :: as, n => by
    cases ho : svc n m.name .background ws with
    | panic =>
      cases r with
      | false => exact ⟨1, by simp [send, respond, h, ho, answer]⟩
      | true =>
        obtain ⟨k, h1, h2, h3, h4, h5⟩ := send_runs lib svc m vals ws h as (n + 1)
        refine ⟨k + 1, ?_, by simpa using h2, ?_, ?_, ?_⟩
        · simp only [send, respond, h, ho, answer, if_true, List.length_singleton] at h1 ⊢
          rw [h1]; rfl
        · intro hn; exact absurd rfl (hn _ (by simp)).2
        · intro _ hp; exact absurd ho (hp n)
        · intro reply hr
          have := h5 reply (by simpa [send, respond, h, ho, answer] using hr)
          refine ⟨by omega, ?_, this.2.2⟩
          rw [this.2.1]; congr 2; omega
    | err msg =>
      refine ⟨1, by simp [send, respond, h, ho, answer], by simp, fun _ => Nat.le_refl _, fun _ _ => Nat.le_refl _, ?_⟩
      intro reply hr
      simp only [send, respond, h, ho, answer, Option.some.injEq] at hr
      refine ⟨by omega, ?_, ?_⟩
      · rw [← hr, show n + 1 - 1 = n by omega, ho]; rfl
      · rw [← hr]; simp
    | ok rets =>
      have hne : answer lib m (.ok rets) ≠ .closed := by simp only [answer]; split <;> simp
      have hs : send (fun n _ => respond lib svc m vals n) [] n (.delivered r :: as) =
          ([⟨m.name, .background, ws⟩], some (answer lib m (.ok rets))) := by
        simp only [send, respond, h, ho]
      rw [hs]
      refine ⟨1, rfl, by simp, fun _ => Nat.le_refl _, fun _ _ => Nat.le_refl _, ?_⟩
      intro reply hr
      simp only [Option.some.injEq] at hr
      refine ⟨by omega, ?_, ?_⟩
      · rw [← hr, show n + 1 - 1 = n by omega, ho]
      · rw [← hr]; exact hne

/-- A request that the server cannot read is not executed. -/
theorem send_unreadable (lib : Lib) (svc : Service) (m : Method) (vals : List (Bytes × Bytes))
    (h : received lib m vals = none) : ∀ (net : List Attempt) (n : Nat),
    (send (fun n _ => respond lib svc m vals n) [] n net).1 = [] ∧
      ∀ reply, (send (fun n _ => respond lib svc m vals n) [] n net).2 = some reply → reply = .response 500 []
  | [], n => by simp [send]
  | .refused :: as, n => by simp [send]
  | .broken r :: as, n => by
    have := send_unreadable lib svc m vals h as n
    cases r <;> simp_all [send, respond]
  | .delivered r :: as, n => by simp [send, respond, h]

end Verif.Http
