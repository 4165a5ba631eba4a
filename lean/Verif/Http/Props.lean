import Verif.Http.CallLemmas
import Verif.Http.Instance
/-
Theorems for C68 (values survive a call over HTTP) and C69 (what a call over HTTP means).
-/
namespace Verif.Http

/-- **C68, arguments.** On a network that delivers, the service method is executed once with exactly the
arguments of the call, if and only if each argument is a string or survives JSON. -/
theorem C68_arguments (lib : Lib) (svc : Service) (ms : List Method) (hi : Interface lib.valid ms) (m : Method)
    (hm : m ∈ ms) (vs : List Val) (ht : HasTys (m.args.map (·.2)) vs) (ctx : Ctx) (reused : Bool) :
    (call lib svc ms [.delivered reused] m ctx vs).1.map (fun r => (r.method, r.args)) = [(m.name, vs)] ↔
      ArgsFaithful lib.valid (m.args.map (·.2)) vs := by
  have hl : m.args.length = vs.length := by simpa using hasTys_length _ _ ht
  have hargs := args_iff lib m.args vs [] ht (hi.declaredArgs m hm) (by simpa using hi.args m hm)
  rw [← hargs]
  rcases call_eq lib svc hi hm vs hl [.delivered reused] ctx with ⟨h1, h2⟩ | ⟨vals, h1, h2, -⟩
  · rw [h2, h1]; simp
  · rw [h2]
    simp only [h1, Option.some.injEq, exists_eq_left', List.nil_append]
    show _ ↔ received lib m vals = some vs
    cases hr : received lib m vals with
    | none => simp [(send_unreadable lib svc m vals hr _ _).1]
    | some ws =>
      have hs : (send (fun n _ => respond lib svc m vals n) [] 0 [.delivered reused]).1 =
          [⟨m.name, .background, ws⟩] := by
        simp only [send, respond, hr]
        split
        · split <;> rfl
        · rfl
      rw [hs]; simp

/-- **C68** (well-formed requests): whatever the arguments contain, the target of the request that a client sends is made
of characters that are legal in a request line. -/
theorem C68_legal_target (lib : Lib) (ms : List Method) (hi : Interface lib.valid ms) (m : Method) (hm : m ∈ ms)
    (vs : List Val) (t : Bytes) (h : request lib m vs = some t) : ∀ b ∈ t, UrlByte b := by
  unfold request at h
  cases hv : requestVals lib m.args vs with
  | none => rw [hv] at h; cases h
  | some vals =>
    rw [hv] at h
    cases h
    have hp : ∀ b ∈ (47 : Byte) :: m.name, UrlByte b := by
      intro b hb
      rcases List.mem_cons.1 hb with rfl | hb
      · decide
      · exact .inl (hi.ident m hm b hb)
    intro b hb
    replace hb : b ∈ target (47 :: m.name) (encodeValues vals) := hb
    unfold target at hb
    split at hb
    · exact hp b hb
    · rcases List.mem_append.1 hb with hb | hb
      · exact hp b hb
      · rcases List.mem_cons.1 hb with rfl | hb
        · decide
        · exact encodeValues_url vals b hb

/-- The arguments of a faithful call arrive. -/
theorem received_args (lib : Lib) {ms : List Method} (hi : Interface lib.valid ms) {m : Method}
    (hm : m ∈ ms) {vs : List Val} (ht : HasTys (m.args.map (·.2)) vs)
    (hf : ArgsFaithful lib.valid (m.args.map (·.2)) vs) :
    ∃ vals, requestVals lib m.args vs = some vals ∧ received lib m vals = some vs := by
  have hargs := args_iff lib m.args vs [] ht (hi.declaredArgs m hm) (by simpa using hi.args m hm)
  simpa [received] using hargs.2 hf

/-- **C68, results.** When the arguments arrive and the service method succeeds, then on a network that
delivers the caller gets exactly the results, if and only if each of them survives JSON. -/
theorem C68_results (lib : Lib) (svc : Service) (ms : List Method) (hi : Interface lib.valid ms) (m : Method)
    (hm : m ∈ ms) (vs : List Val) (ht : HasTys (m.args.map (·.2)) vs)
    (hf : ArgsFaithful lib.valid (m.args.map (·.2)) vs) (ctx : Ctx) (reused : Bool) (rets : List Val)
    (hr : HasTys m.rets rets) (hs : svc 0 m.name .background vs = .ok rets) :
    (call lib svc ms [.delivered reused] m ctx vs).2 = .ok rets ↔ RetsFaithful lib.valid m.rets rets := by
  have hl : m.args.length = vs.length := by simpa using hasTys_length _ _ ht
  obtain ⟨vals, h1, h2⟩ := received_args lib hi hm ht hf
  rcases call_eq lib svc hi hm vs hl [.delivered reused] ctx with ⟨h3, -⟩ | ⟨vals', h3, -, h4⟩
  · rw [h1] at h3; cases h3
  · rw [h1] at h3; cases h3
    rw [h4, ← read_ok_iff lib hi hm rets hr]
    have hne : answer lib m (.ok rets) ≠ .closed := by simp only [answer]; split <;> simp
    have hs : (send (fun n _ => respond lib svc m vals n) [] 0 [.delivered reused]).2 =
        some (answer lib m (.ok rets)) := by
      simp only [send, respond, h2, hs]
    rw [hs]

/-- **C69, success means execution.** On every network: when a call succeeds, the method was executed, its
last execution succeeded, and the caller's results are those of that execution if they survive JSON. -/
theorem C69_success (lib : Lib) (svc : Service) (ms : List Method) (hi : Interface lib.valid ms) (m : Method)
    (hm : m ∈ ms) (vs : List Val) (ht : HasTys (m.args.map (·.2)) vs) (ctx : Ctx) (net : List Attempt)
    (rets : List Val) (h : (call lib svc ms net m ctx vs).2 = .ok rets) :
    ∃ before last res, (call lib svc ms net m ctx vs).1 = before ++ [last] ∧ last.method = m.name ∧
      svc before.length last.method last.ctx last.args = .ok res ∧
      (ArgsFaithful lib.valid (m.args.map (·.2)) vs → last.args = vs) ∧
      (HasTys m.rets res → RetsFaithful lib.valid m.rets res → rets = res) := by
  have hl : m.args.length = vs.length := by simpa using hasTys_length _ _ ht
  rcases call_eq lib svc hi hm vs hl net ctx with ⟨h1, h2⟩ | ⟨vals, h1, h2, h3⟩
  · rw [h2] at h; cases h
  · rw [h3] at h
    rw [h2]
    cases hr : received lib m vals with
    | none =>
      split at h
      · cases h
      · rename_i reply hrep
        rw [(send_unreadable lib svc m vals hr _ _).2 reply hrep] at h
        simp [readReply] at h
    | some ws =>
      obtain ⟨k, e1, -, -, -, e2⟩ := send_runs lib svc m vals ws hr net 0
      split at h
      · cases h
      · rename_i reply hrep
        obtain ⟨hk, e3, -⟩ := e2 reply hrep
        rw [e3] at h
        obtain ⟨res, hres⟩ := read_ok h
        refine ⟨List.replicate (k - 1) ⟨m.name, .background, ws⟩, ⟨m.name, .background, ws⟩, res, ?_, rfl, ?_, ?_, ?_⟩
        · rw [e1]
          obtain ⟨j, rfl⟩ : ∃ j, k = j + 1 := ⟨k - 1, by omega⟩
          simp [List.replicate_succ']
        · rw [List.length_replicate]
          simpa using hres
        · intro hf
          obtain ⟨vals', h4, h5⟩ := received_args lib hi hm ht hf
          rw [h1] at h4; cases h4
          rw [hr] at h5; cases h5; rfl
        · intro hty hrf
          rw [hres, (read_ok_iff lib hi hm res hty).2 hrf] at h
          cases h; rfl

/-- **C69, errors reach the caller.** On every network: when every execution of the method with the call's
arguments fails or panics, the caller gets an error. -/
theorem C69_error (lib : Lib) (svc : Service) (ms : List Method) (hi : Interface lib.valid ms) (m : Method)
    (hm : m ∈ ms) (vs : List Val) (ht : HasTys (m.args.map (·.2)) vs)
    (hf : ArgsFaithful lib.valid (m.args.map (·.2)) vs) (ctx : Ctx) (net : List Attempt)
    (hs : ∀ n c rets, svc n m.name c vs ≠ .ok rets) : ∃ e, (call lib svc ms net m ctx vs).2 = .err e := by
  cases h : (call lib svc ms net m ctx vs).2 with
  | err e => exact ⟨e, rfl⟩
  | ok rets =>
    obtain ⟨before, last, res, -, h1, h2, h3, -⟩ := C69_success lib svc ms hi m hm vs ht ctx net rets h
    rw [h1, h3 hf] at h2
    exact absurd h2 (hs _ _ _)

/-- **C69, no execution out of thin air.** On every network: every execution is of the method called, and
with the arguments of the call if these survive; there are at most as many as attempts to send the request. -/
theorem C69_executions (lib : Lib) (svc : Service) (ms : List Method) (hi : Interface lib.valid ms) (m : Method)
    (hm : m ∈ ms) (vs : List Val) (ht : HasTys (m.args.map (·.2)) vs) (ctx : Ctx) (net : List Attempt) :
    (∀ r ∈ (call lib svc ms net m ctx vs).1, r.method = m.name ∧
      (ArgsFaithful lib.valid (m.args.map (·.2)) vs → r.args = vs)) ∧
    (call lib svc ms net m ctx vs).1.length ≤ net.length := by
  have hl : m.args.length = vs.length := by simpa using hasTys_length _ _ ht
  rcases call_eq lib svc hi hm vs hl net ctx with ⟨h1, h2⟩ | ⟨vals, h1, h2, h3⟩
  · rw [h2]; simp
  · rw [h2]
    cases hr : received lib m vals with
    | none => rw [(send_unreadable lib svc m vals hr _ _).1]; simp
    | some ws =>
      obtain ⟨k, e1, e2, -⟩ := send_runs lib svc m vals ws hr net 0
      rw [e1]
      refine ⟨?_, by simpa using e2⟩
      intro r hmem
      rw [List.eq_of_mem_replicate hmem]
      refine ⟨rfl, fun hf => ?_⟩
      obtain ⟨vals', h4, h5⟩ := received_args lib hi hm ht hf
      rw [h1] at h4; cases h4
      rw [hr] at h5; cases h5; rfl

/-- **C69, at most once (partial).** The method is executed at most once when no connection is reused, or when
no reused connection breaks and the method never panics.  What is missing is the same for reused connections
that break, which is false: `C69_at_most_once_refuted`. -/
theorem C69_at_most_once_partial (lib : Lib) (svc : Service) (ms : List Method) (hi : Interface lib.valid ms)
    (m : Method) (hm : m ∈ ms) (vs : List Val) (ht : HasTys (m.args.map (·.2)) vs) (ctx : Ctx) (net : List Attempt)
    (hnet : (∀ a ∈ net, a ≠ .broken true ∧ a ≠ .delivered true) ∨
      ((∀ a ∈ net, a ≠ .broken true) ∧ ∀ n c ws, svc n m.name c ws ≠ .panic)) :
    (call lib svc ms net m ctx vs).1.length ≤ 1 := by
  have hl : m.args.length = vs.length := by simpa using hasTys_length _ _ ht
  rcases call_eq lib svc hi hm vs hl net ctx with ⟨h1, h2⟩ | ⟨vals, h1, h2, h3⟩
  · rw [h2]; simp
  · rw [h2]
    cases hr : received lib m vals with
    | none => rw [(send_unreadable lib svc m vals hr _ _).1]; simp
    | some ws =>
      obtain ⟨k, e1, e2, e3, e4, -⟩ := send_runs lib svc m vals ws hr net 0
      rw [e1, List.length_replicate]
      rcases hnet with hn | ⟨hn, hp⟩
      · exact e3 hn
      · exact e4 hn (fun i => hp i _ _)

/-- **C69, a failed method is reported as status 500.** On a network that delivers, whatever the message. -/
theorem C69_status (lib : Lib) (svc : Service) (ms : List Method) (hi : Interface lib.valid ms) (m : Method)
    (hm : m ∈ ms) (vs : List Val) (ht : HasTys (m.args.map (·.2)) vs)
    (hf : ArgsFaithful lib.valid (m.args.map (·.2)) vs) (ctx : Ctx) (reused : Bool) (msg : Bytes)
    (hs : svc 0 m.name .background vs = .err msg) :
    (call lib svc ms [.delivered reused] m ctx vs).2 = .err (.status 500) := by
  have hl : m.args.length = vs.length := by simpa using hasTys_length _ _ ht
  obtain ⟨vals, h1, h2⟩ := received_args lib hi hm ht hf
  rcases call_eq lib svc hi hm vs hl [.delivered reused] ctx with ⟨h3, -⟩ | ⟨vals', h3, -, h4⟩
  · rw [h1] at h3; cases h3
  · rw [h1] at h3; cases h3
    rw [h4]
    simp [send, respond, h2, hs, answer, readReply]

/-- **C69, the caller's context stays behind.** Every execution gets a context without deadline, and the
result does not depend on the caller's context. -/
theorem C69_context (lib : Lib) (svc : Service) (ms : List Method) (hi : Interface lib.valid ms) (m : Method)
    (hm : m ∈ ms) (vs : List Val) (ht : HasTys (m.args.map (·.2)) vs) (ctx : Ctx) (net : List Attempt) :
    (∀ r ∈ (call lib svc ms net m ctx vs).1, r.ctx = .background) ∧
    ∀ ctx', call lib svc ms net m ctx' vs = call lib svc ms net m ctx vs := by
  refine ⟨?_, fun _ => rfl⟩
  have hl : m.args.length = vs.length := by simpa using hasTys_length _ _ ht
  rcases call_eq lib svc hi hm vs hl net ctx with ⟨h1, h2⟩ | ⟨vals, h1, h2, h3⟩
  · rw [h2]; simp
  · rw [h2]
    cases hr : received lib m vals with
    | none => rw [(send_unreadable lib svc m vals hr _ _).1]; simp
    | some ws =>
      obtain ⟨k, e1, -⟩ := send_runs lib svc m vals ws hr net 0
      rw [e1]
      intro r hmem
      rw [List.eq_of_mem_replicate hmem]

/-! ### Witnesses -/

/-- A library that accepts ASCII. -/
def Ascii (lib : Lib) : Prop := ∀ s : Bytes, (∀ b ∈ s, b.val < 128) → lib.valid s = true

/-- The method `F(a t) r`. -/
def methodF (t : Ty) (rets : List Ty) : Method := { name := [70], args := [([97], t)], rets := rets }

theorem interfaceF (lib : Lib) (ha : Ascii lib) (t : Ty) (rets : List Ty) (h1 : Declared lib.valid t)
    (h2 : DeclaredAll lib.valid rets) : Interface lib.valid [methodF t rets] where
  names := by simp
  ident := by
    intro m hm b hb
    simp only [List.mem_singleton] at hm; subst hm
    simp only [methodF, List.mem_singleton] at hb; subst hb
    right; left; decide
  args := by intro m hm; simp only [List.mem_singleton] at hm; subst hm; simp [methodF]
  declaredArgs := by
    intro m hm a hmem
    simp only [List.mem_singleton] at hm; subst hm
    simp only [methodF, List.mem_singleton] at hmem; subst hmem
    exact h1
  declaredRets := by intro m hm; simp only [List.mem_singleton] at hm; subst hm; exact h2
  ascii := ha

/-- The call of `F` on a network that delivers, computed. -/
theorem callF (lib : Lib) (ha : Ascii lib) (svc : Service) (t : Ty) (rets : List Ty) (h1 : Declared lib.valid t)
    (h2 : DeclaredAll lib.valid rets) (v w : Val) (s : Bytes) (ctx : Ctx) (e1 : argText lib t v = some s)
    (e2 : parseArg lib t s = some w) (hp : svc 0 [70] .background [w] ≠ .panic) :
    call lib svc [methodF t rets] [.delivered false] (methodF t rets) ctx [v] =
      ([⟨[70], .background, [w]⟩], readReply lib (methodF t rets) (answer lib (methodF t rets) (svc 0 [70] .background [w]))) := by
  have hi := interfaceF lib ha t rets h1 h2
  have hrv : requestVals lib (methodF t rets).args [v] = some [([97], s)] := by
    simp [methodF, requestVals, e1]
  have hrec : received lib (methodF t rets) [([97], s)] = some [w] := by
    simp [methodF, received, e2]
  rcases call_eq lib svc hi (m := methodF t rets) (by simp) [v] rfl [.delivered false] ctx with ⟨h3, -⟩ | ⟨vals', h3, h4, h5⟩
  · rw [hrv] at h3; cases h3
  · rw [hrv] at h3; cases h3
    have hne : answer lib (methodF t rets) (svc 0 [70] .background [w]) ≠ .closed := by
      cases ho : svc 0 [70] .background [w] with
      | ok r => simp only [answer]; split <;> simp
      | err _ => simp [answer]
      | panic => exact absurd ho hp
    have hs : send (fun n _ => respond lib svc (methodF t rets) [([97], s)] n) [] 0 [.delivered false] =
        ([⟨[70], .background, [w]⟩], some (answer lib (methodF t rets) (svc 0 [70] .background [w]))) := by
      simp only [send, respond, hrec]
      split
      · rename_i hc; exact absurd hc hne
      · rfl
    rw [hs] at h4 h5
    exact Prod.ext h4 h5

/-- Empty answers. -/
theorem answer_none (lib : Lib) (ha : Ascii lib) (t : Ty) (h1 : Declared lib.valid t) :
    readReply lib (methodF t []) (answer lib (methodF t []) (.ok [])) = .ok [] := by
  have hi := interfaceF lib ha t [] h1 (by simp [DeclaredAll])
  rw [read_ok_iff lib hi (by simp) [] (by simp [methodF, HasTys])]
  simp [methodF, RetsFaithful]

/-- A struct with one field `x` of type string that is not exported. -/
def hiddenTy : Ty := .struct [{ name := [120], exported := false }] [.string]

/-- C68 fails for structs with fields that are not exported: the call succeeds, and the method is executed
with an argument whose field is empty. -/
theorem C68_unexported_refuted (lib : Lib) (ha : Ascii lib) :
    call lib (fun _ _ _ _ => .ok []) [methodF hiddenTy []] [.delivered false] (methodF hiddenTy []) .background
      [.struct [.str [65]]] = ([⟨[70], .background, [.struct [.str []]]⟩], .ok []) := by
  have hd : Declared lib.valid hiddenTy := by
    simp only [hiddenTy, Declared, DeclaredAll]
    refine ⟨?_, trivial, trivial⟩
    intro f hf
    simp only [List.mem_singleton] at hf; subst hf
    refine ha _ fun b hb => ?_
    simp only [jsonName, List.mem_singleton] at hb; subst hb
    decide
  have hc : (Json.obj [] []).clean lib.valid := by simp [Json.clean, Json.cleanAll]
  rw [callF lib ha _ hiddenTy [] hd (by simp [DeclaredAll]) (.struct [.str [65]]) (.struct [.str []])
    (lib.print (.obj [] [])) .background ?_ ?_ (by simp)]
  · rw [answer_none lib ha hiddenTy hd]
  · rfl
  · have hs : hiddenTy.isString = false := rfl
    unfold parseArg
    rw [hs, if_neg (by simp), if_neg (print_ne_nil lib _ hc), lib.parse_print _ hc]
    rfl

/-- C68 fails for results that are not valid UTF-8: the caller gets another string, and no error. -/
theorem C68_invalid_utf8_refuted (lib : Lib) (ha : Ascii lib) (hv : lib.valid [255] = false) :
    ∃ s, s ≠ [255] ∧
    call lib (fun _ _ _ _ => .ok [.str [255]]) [methodF .bool [.string]] [.delivered false] (methodF .bool [.string])
      .background [.bool true] = ([⟨[70], .background, [.bool true]⟩], .ok [.str s]) := by
  refine ⟨lib.replace [255], ?_, ?_⟩
  · intro h
    have := lib.valid_replace [255]
    rw [h, hv] at this; cases this
  · have hc : (Json.bool true).clean lib.valid := by simp [Json.clean]
    rw [callF lib ha _ .bool [.string] (by simp [Declared]) (by simp [Declared, DeclaredAll]) (.bool true) (.bool true)
      (lib.print (.bool true)) .background rfl ?_ (by simp)]
    · congr 1
      have he : encode lib (responseTy (methodF .bool [.string])) (.struct [.str [255]]) =
          some (.obj [.str (retName 0)] [.str (lib.replace [255])]) := by rfl
      have hcl : (Json.obj [.str (retName 0)] [.str (lib.replace [255])]).clean lib.valid :=
        encode_clean lib _ _ _ (response_declared (interfaceF lib ha .bool [.string] (by simp [Declared])
          (by simp [Declared, DeclaredAll])) (by simp)) he
      simp only [answer, he, readReply, lib.parse_print _ hcl]
      rfl
    · unfold parseArg
      rw [show Ty.bool.isString = false from rfl, if_neg (by simp), if_neg (print_ne_nil lib _ hc), lib.parse_print _ hc]
      rfl

/-- C68 fails for results that are not numbers: the method succeeds, the caller gets an error. -/
theorem C68_nan_refuted (lib : Lib) (ha : Ascii lib) :
    call lib (fun _ _ _ _ => .ok [.float .nan]) [methodF .bool [.float]] [.delivered false] (methodF .bool [.float])
      .background [.bool true] = ([⟨[70], .background, [.bool true]⟩], .err .body) := by
  have hc : (Json.bool true).clean lib.valid := by simp [Json.clean]
  rw [callF lib ha _ .bool [.float] (by simp [Declared]) (by simp [Declared, DeclaredAll]) (.bool true) (.bool true)
    (lib.print (.bool true)) .background rfl ?_ (by simp)]
  · congr 1
    have he : encode lib (responseTy (methodF .bool [.float])) (.struct [.float .nan]) = none := by rfl
    simp only [answer, he, readReply, lib.parse_nil]
    rfl
  · unfold parseArg
    rw [show Ty.bool.isString = false from rfl, if_neg (by simp), if_neg (print_ne_nil lib _ hc), lib.parse_print _ hc]
    rfl

/-- C68 fails for pointers to nil: the method is executed with a nil pointer, and dereferencing it panics. -/
theorem C68_pointer_to_nil_refuted (lib : Lib) (ha : Ascii lib) :
    call lib (fun _ _ _ _ => .ok []) [methodF (.ptr (.slice .bool)) []] [.delivered false]
      (methodF (.ptr (.slice .bool)) []) .background [.ptr .nilSlice] =
      ([⟨[70], .background, [.nilPtr]⟩], .ok []) := by
  have hd : Declared lib.valid (.ptr (.slice .bool)) := by simp [Declared]
  have hc : Json.null.clean lib.valid := by simp [Json.clean]
  rw [callF lib ha _ _ [] hd (by simp [DeclaredAll]) (.ptr .nilSlice) .nilPtr (lib.print .null) .background rfl ?_ (by simp)]
  · rw [answer_none lib ha _ hd]
  · unfold parseArg
    rw [show (Ty.ptr (.slice .bool)).isString = false from rfl, if_neg (by simp), if_neg (print_ne_nil lib _ hc),
      lib.parse_print _ hc]
    rfl

/-- A method without arguments and results. -/
def methodG : Method := { name := [71], args := [], rets := [] }

theorem interfaceG (lib : Lib) (ha : Ascii lib) : Interface lib.valid [methodG] where
  names := by simp
  ident := by
    intro m hm b hb
    simp only [List.mem_singleton] at hm; subst hm
    simp only [methodG, List.mem_singleton] at hb; subst hb
    right; left; decide
  args := by intro m hm; simp only [List.mem_singleton] at hm; subst hm; simp [methodG]
  declaredArgs := by
    intro m hm a hmem
    simp only [List.mem_singleton] at hm; subst hm
    simp [methodG] at hmem
  declaredRets := by intro m hm; simp only [List.mem_singleton] at hm; subst hm; simp [methodG, DeclaredAll]
  ascii := ha

/-- At-most-once fails over HTTP: when a reused connection breaks, the request is sent again, the method is
executed twice, and the caller sees one successful call. -/
theorem C69_at_most_once_refuted (lib : Lib) (ha : Ascii lib) :
    call lib (fun _ _ _ _ => .ok []) [methodG] [.broken true, .delivered false] methodG .background [] =
      ([⟨[71], .background, []⟩, ⟨[71], .background, []⟩], .ok []) := by
  have hi := interfaceG lib ha
  rcases call_eq lib (fun _ _ _ _ => .ok []) hi (m := methodG) (by simp) [] rfl [.broken true, .delivered false] .background with
    ⟨h, -⟩ | ⟨vals, h1, h2, h3⟩
  · cases h
  · cases h1
    have he : encode lib (responseTy methodG) (.struct []) = some (.obj [] []) := rfl
    have hc : (Json.obj [] []).clean lib.valid := by simp [Json.clean, Json.cleanAll]
    have hs : send (fun n _ => respond lib (fun _ _ _ _ => .ok []) methodG [] n) [] 0 [.broken true, .delivered false] =
        ([⟨[71], .background, []⟩, ⟨[71], .background, []⟩], some (.response 200 (lib.print (.obj [] [])))) := by
      have : received lib methodG [] = some [] := rfl
      simp only [send, respond, this, answer, he, if_true]
      rfl
    rw [hs] at h2 h3
    simp only [readReply, lib.parse_print _ hc] at h3
    exact Prod.ext h2 (h3.trans rfl)

/-- The caller's deadline does not reach the method. -/
theorem C69_deadline_refuted (lib : Lib) (ha : Ascii lib) :
    (call lib (fun _ _ _ _ => .ok []) [methodG] [.delivered false] methodG (.caller (some 5)) []).1 =
      [⟨[71], .background, []⟩] := by
  have h := (C68_arguments lib (fun _ _ _ _ => .ok []) [methodG] (interfaceG lib ha) methodG (by simp) []
    (by simp [methodG, HasTys]) (.caller (some 5)) false).2 (by simp [methodG, ArgsFaithful])
  have h2 := (C69_context lib (fun _ _ _ _ => .ok []) [methodG] (interfaceG lib ha) methodG (by simp) []
    (by simp [methodG, HasTys]) (.caller (some 5)) [.delivered false]).1
  generalize (call lib (fun _ _ _ _ => .ok []) [methodG] [.delivered false] methodG (.caller (some 5)) []).1 = runs at h h2
  match runs, h, h2 with
  | [r], h, h2 =>
    obtain ⟨a, b, c⟩ := r
    have := h2 _ (by simp : (⟨a, b, c⟩ : Run) ∈ [⟨a, b, c⟩])
    simp only [List.map_cons, List.map_nil, List.cons.injEq, Prod.mk.injEq, and_true] at h
    simp only at this
    rw [this, h.1, h.2]; rfl
  | [], h, _ => simp at h
  | _ :: _ :: _, h, _ => simp at h

/-- The caller cannot tell errors apart: two services that fail with different messages give the same error. -/
theorem C69_error_text_refuted (lib : Lib) (ha : Ascii lib) :
    ∀ msg msg' : Bytes, (call lib (fun _ _ _ _ => .err msg) [methodG] [.delivered false] methodG .background []).2 =
      (call lib (fun _ _ _ _ => .err msg') [methodG] [.delivered false] methodG .background []).2 := by
  intro msg msg'
  rw [C69_status lib _ [methodG] (interfaceG lib ha) methodG (by simp) [] (by simp [methodG, HasTys])
      (by simp [methodG, ArgsFaithful]) .background false msg rfl,
    C69_status lib _ [methodG] (interfaceG lib ha) methodG (by simp) [] (by simp [methodG, HasTys])
      (by simp [methodG, ArgsFaithful]) .background false msg' rfl]

/-! ### The hypotheses can be met -/

theorem exampleLib_ascii : Ascii exampleLib := by
  intro s h
  show ascii s = true
  simpa [ascii] using h

/-- A library in which the byte 255 is not valid. -/
example : exampleLib.valid [255] = false := by decide

/-- The struct `{Name string; Tags []string `json:"tags,omitempty"`}`. -/
def userTy : Ty := .struct [{ name := [78] }, { name := [84], tag := some [116], omitempty := true }] [.string, .slice .string]

theorem userTy_declared : Declared exampleLib.valid userTy := by
  simp only [userTy, Declared, DeclaredAll]
  refine ⟨?_, trivial, trivial, trivial⟩
  intro f hf
  apply exampleLib_ascii
  intro b hb
  simp only [List.mem_cons, List.not_mem_nil, or_false] at hf
  rcases hf with rfl | rfl <;> simp only [jsonName, List.mem_singleton] at hb <;> subst hb <;> decide

theorem userTy_visible (i : Nat) (h : i < 2) :
    Visible [{ name := [78] }, { name := [84], tag := some [116], omitempty := true }] i := by
  match i, h with
  | 0, _ =>
    refine ⟨_, rfl, rfl, rfl, ?_⟩
    intro j g hj hne _ _ hk
    match j, hj with
    | 0, _ => exact absurd rfl hne
    | 1, hj => simp at hj; subst hj; exact absurd hk (by decide)
  | 1, _ =>
    refine ⟨_, rfl, rfl, rfl, ?_⟩
    intro j g hj hne _ _ hk
    match j, hj with
    | 0, hj => simp at hj; subst hj; exact absurd hk (by decide)
    | 1, _ => exact absurd rfl hne

/-- A user with a tag arrives. -/
example (svc : Service) (ctx : Ctx) :
    (call exampleLib svc [methodF userTy []] [.delivered false] (methodF userTy []) ctx
      [.struct [.str [65], .slice [.str [66]]]]).1.map (fun r => (r.method, r.args)) =
      [([70], [.struct [.str [65], .slice [.str [66]]]])] := by
  refine (C68_arguments exampleLib svc _ (interfaceF exampleLib exampleLib_ascii userTy [] userTy_declared
    (by simp [DeclaredAll])) (methodF userTy []) (by simp) _ ?_ ctx false).2 ?_
  · simp [methodF, userTy, HasTys, HasTy]
  · simp only [methodF, List.map_cons, List.map_nil, ArgsFaithful, ArgFaithful, and_true]
    right
    simp only [userTy, Faithful, FaithfulFields]
    refine ⟨fun _ s hs => ?_, fun hn => ?_, fun _ v hv s hs => ?_, fun hn => ?_, trivial⟩
    · cases hs; decide
    · exfalso; apply hn
      refine ⟨userTy_visible 0 (by omega), ?_⟩
      rintro ⟨⟨f, hf, ho⟩, -⟩
      simp at hf; subst hf; cases ho
    · simp only [List.mem_singleton] at hv; subst hv; cases hs; decide
    · exfalso; apply hn
      refine ⟨userTy_visible 1 (by omega), ?_⟩
      rintro ⟨-, ho⟩
      simp [Omittable] at ho

/-- A user with an empty, non-nil list of tags does not. -/
example (svc : Service) (ctx : Ctx) :
    (call exampleLib svc [methodF userTy []] [.delivered false] (methodF userTy []) ctx
      [.struct [.str [65], .slice []]]).1.map (fun r => (r.method, r.args)) ≠
      [([70], [.struct [.str [65], .slice []]])] := by
  intro h
  have h := (C68_arguments exampleLib svc _ (interfaceF exampleLib exampleLib_ascii userTy [] userTy_declared
    (by simp [DeclaredAll])) (methodF userTy []) (by simp) _ (by simp [methodF, userTy, HasTys, HasTy]) ctx false).1 h
  simp only [methodF, List.map_cons, List.map_nil, ArgsFaithful, ArgFaithful, and_true] at h
  rcases h with h | h
  · simp [userTy] at h
  · simp only [userTy, Faithful, FaithfulFields] at h
    have := h.2.2.2.1 (by
      rintro ⟨-, hn⟩
      exact hn ⟨⟨_, rfl, rfl⟩, by simp [Omittable]⟩)
    simp [IsZero] at this

/-- A network without reused connections. -/
example : ∀ a ∈ [Attempt.refused, .broken false], a ≠ .broken true ∧ a ≠ .delivered true := by decide

end Verif.Http
