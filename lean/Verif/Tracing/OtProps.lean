import Verif.Tracing.OtSpec
/-
C65: OpenTelemetry traces.
-/
namespace Verif.Tracing.Ot

theorem idValid_iff (id : List Byte) : idValid id = true ↔ NonZero id := by
  simp [idValid, NonZero]

theorem recordError_eq (r : Res) : recordError r = errorEvents r := by
  cases h : r.err <;> simp [recordError, errorEvents, h]

theorem serverName_eq (m : Method) : serverName m = m.service ++ "Server_".toList ++ m.method := rfl

theorem clientName_eq (m : Method) : clientName m = m.base ++ "Client_".toList ++ m.method := rfl

theorem sampledFlag_iff (flags : Byte) : sampledFlag flags = true ↔ flags.val % 2 = 1 := by
  simp [sampledFlag]

/-! ### The encoding of span contexts -/

theorem hexDigit : ∀ n : Fin 16, fromHex (hexChar n.val) = some n.val ∧ lowerHex (hexChar n.val) = true := by
  decide

theorem hexDigit' {n : Nat} (h : n < 16) : fromHex (hexChar n) = some n ∧ lowerHex (hexChar n) = true :=
  hexDigit ⟨n, h⟩

theorem hexDecode_encode (bs : List Byte) : hexDecode (hexEncode bs) = some bs := by
  induction bs with
  | nil => rfl
  | cons b bs ih =>
    have h1 : b.val / 16 < 16 := by omega
    have h2 : b.val % 16 < 16 := by omega
    rw [hexEncode, hexDecode, (hexDigit' h1).1, (hexDigit' h2).1, ih]
    simp only [Option.some.injEq, List.cons.injEq, and_true]
    apply Fin.ext
    simp only [Fin.ofNat]
    omega

theorem hexEncode_length (bs : List Byte) : (hexEncode bs).length = 2 * bs.length := by
  induction bs with
  | nil => rfl
  | cons b bs ih => simp only [hexEncode, List.length_cons, ih]; omega

theorem hexEncode_lower (bs : List Byte) : (hexEncode bs).any (fun c => !lowerHex c) = false := by
  induction bs with
  | nil => rfl
  | cons b bs ih =>
    have h1 : b.val / 16 < 16 := by omega
    have h2 : b.val % 16 < 16 := by omega
    simp only [hexEncode, List.any_cons, (hexDigit' h1).2, (hexDigit' h2).2, ih]
    rfl

theorem idFromHex_encode {n : Nat} {id : List Byte} (hl : id.length = n) :
    idFromHex (2 * n) (hexEncode id) = if idValid id then some id else none := by
  simp [idFromHex, hexEncode_length, hl, hexEncode_lower, hexDecode_encode]

/-- **C65** (context).  The server gets the span context that the client sent. -/
theorem C65_context {parse : List Char → Option (List Char)} {sc : SpanContext} (h : Real parse sc) :
    getSpanContext parse (marshal sc) = .ok sc := by
  simp only [getSpanContext, marshal]
  rw [show (32 : Nat) = 2 * 16 from rfl, idFromHex_encode h.traceLength, if_pos ((idValid_iff _).2 h.traceValid)]
  simp only []
  rw [show (16 : Nat) = 2 * 8 from rfl, idFromHex_encode h.spanLength, if_pos ((idValid_iff _).2 h.spanValid)]
  simp only [hexDecode_encode, h.state]

theorem getSpanContext_zero (parse : List Char → Option (List Char)) :
    getSpanContext parse (marshal SpanContext.zero) = .err := by
  simp only [getSpanContext, marshal]
  rw [show idFromHex 32 (hexEncode SpanContext.zero.traceId) = none from by decide +kernel]

/-! ### Arranging spans -/

theorem ofSpans_append (f : Span → Forest) (a b : List Span) :
    Forest.ofSpans f (a ++ b) = (Forest.ofSpans f a).append (Forest.ofSpans f b) := by
  induction a with
  | nil => rfl
  | cons s a ih => simp only [List.cons_append, Forest.ofSpans, Forest.append, ih]

theorem ofSpans_congr {f g : Span → Forest} {a : List Span} (h : ∀ s ∈ a, f s = g s) :
    Forest.ofSpans f a = Forest.ofSpans g a := by
  induction a with
  | nil => rfl
  | cons s a ih =>
    simp only [Forest.ofSpans]
    rw [h s List.mem_cons_self, ih (fun t ht => h t (List.mem_cons_of_mem _ ht))]

theorem append_nil (a : Forest) : a.append .nil = a := by
  induction a with
  | nil => rfl
  | node n e s r _ ih => simp only [Forest.append, ih]

theorem append_assoc (a b c : Forest) : (a.append b).append c = a.append (b.append c) := by
  induction a with
  | nil => rfl
  | node n e s r _ ih => simp only [Forest.append, ih]

theorem size_append (a b : Forest) : (a.append b).size = a.size + b.size := by
  induction a with
  | nil => simp [Forest.append, Forest.size]
  | node n e s r _ ih => simp only [Forest.append, Forest.size, ih]; omega

/-- Two lists of spans look the same from `key` if they have the same children for all ids in
a set that is closed under children. -/
theorem rebuild_congr {A B : List Span} (R : List Byte × List Byte → Prop)
    (hf : ∀ key, R key → A.filter (childOf key) = B.filter (childOf key))
    (hc : ∀ s ∈ A, R (s.parent.traceId, s.parent.spanId) → R (s.ctx.traceId, s.ctx.spanId))
    (n : Nat) (key : List Byte × List Byte) (hk : R key) : rebuild A n key = rebuild B n key := by
  induction n generalizing key with
  | zero => rfl
  | succ n ih =>
    simp only [rebuild, ← hf key hk]
    refine ofSpans_congr (fun s hs => ih _ ?_)
    have hm := List.mem_filter.1 hs
    have hp : (s.parent.traceId, s.parent.spanId) = key := by
      have := hm.2
      simp only [childOf, decide_eq_true_eq] at this
      exact this.1
    exact hc s hm.1 (by rw [hp]; exact hk)

/-- Where the ids of spans come from: the spans have ids in `R`, their parents are in `R` or
equal to `x`. -/
structure Within (R : List Byte → Prop) (x : List Byte × List Byte) (A : List Span) : Prop where
  own : ∀ s ∈ A, R s.ctx.spanId
  parent : ∀ s ∈ A, R s.parent.spanId ∨ (s.parent.traceId, s.parent.spanId) = x

theorem Within.mono {R S : List Byte → Prop} {x : List Byte × List Byte} {A : List Span} (h : Within R x A)
    (hrs : ∀ i, R i → S i) : Within S x A :=
  ⟨fun s hs => hrs _ (h.own s hs), fun s hs => (h.parent s hs).imp (hrs _) id⟩

theorem Within.append {R : List Byte → Prop} {x : List Byte × List Byte} {A B : List Span}
    (ha : Within R x A) (hb : Within R x B) : Within R x (A ++ B) := by
  refine ⟨fun s hs => ?_, fun s hs => ?_⟩
  · rcases List.mem_append.1 hs with h | h
    · exact ha.own s h
    · exact hb.own s h
  · rcases List.mem_append.1 hs with h | h
    · exact ha.parent s h
    · exact hb.parent s h

theorem Within.nil (R : List Byte → Prop) (x : List Byte × List Byte) : Within R x [] := ⟨by simp, by simp⟩

theorem childOf_iff {key : List Byte × List Byte} {s : Span} :
    childOf key s = true ↔
      (s.parent.traceId, s.parent.spanId) = key ∧ (idValid key.1 = true → s.ctx.traceId = key.1) := by
  simp only [childOf, decide_eq_true_eq, idValid_iff]

/-- Spans from different parts of the run do not mix. -/
theorem rebuild_append {RA RB : List Byte → Prop} {x : List Byte × List Byte} {A B : List Span}
    (ha : Within RA x A) (hb : Within RB x B) (hd : ∀ i, RA i → ¬RB i) (hxa : ¬RA x.2) (hxb : ¬RB x.2) (n : Nat) :
    rebuild (A ++ B) n x = (rebuild A n x).append (rebuild B n x) := by
  cases n with
  | zero => rfl
  | succ n =>
    simp only [rebuild, List.filter_append, ofSpans_append]
    congr 1
    · refine ofSpans_congr (fun s hs => ?_)
      refine rebuild_congr (fun key => RA key.2) ?_ ?_ n _ (ha.own s (List.mem_filter.1 hs).1)
      · intro key hk
        rw [List.filter_append]
        suffices B.filter (childOf key) = [] by rw [this, List.append_nil]
        rw [List.filter_eq_nil_iff]
        intro t ht hch
        have hp := (childOf_iff.1 hch).1
        rcases hb.parent t ht with h | h
        · rw [← hp] at hk
          exact hd _ hk h
        · rw [← hp, h] at hk
          exact hxa hk
      · intro t ht hp
        rcases List.mem_append.1 ht with h | h
        · exact ha.own t h
        · rcases hb.parent t h with hq | hq
          · exact absurd hq (hd _ hp)
          · rw [hq] at hp
            exact absurd hp hxa
    · refine ofSpans_congr (fun s hs => ?_)
      refine rebuild_congr (fun key => RB key.2) ?_ ?_ n _ (hb.own s (List.mem_filter.1 hs).1)
      · intro key hk
        rw [List.filter_append]
        suffices A.filter (childOf key) = [] by rw [this, List.nil_append]
        rw [List.filter_eq_nil_iff]
        intro t ht hch
        have hp := (childOf_iff.1 hch).1
        rcases ha.parent t ht with h | h
        · rw [← hp] at hk
          exact hd _ h hk
        · rw [← hp, h] at hk
          exact hxb hk
      · intro t ht hp
        rcases List.mem_append.1 ht with h | h
        · rcases ha.parent t h with hq | hq
          · exact absurd hp (hd _ hq)
          · rw [hq] at hp
            exact absurd hp hxb
        · exact hb.own t h

/-- A span above other spans. -/
theorem rebuild_cons {R : List Byte → Prop} {x : List Byte × List Byte} {s : Span} {A : List Span}
    (ha : Within R (s.ctx.traceId, s.ctx.spanId) A) (hx : (s.parent.traceId, s.parent.spanId) = x)
    (ht : idValid x.1 = true → s.ctx.traceId = x.1)
    (hne : s.ctx.spanId ≠ x.2) (hxr : ¬R x.2) (n : Nat) :
    rebuild (s :: A) (n + 1) x =
      .node s.name s.events (rebuild A n (s.ctx.traceId, s.ctx.spanId)) .nil := by
  have hch : childOf x s = true := childOf_iff.2 ⟨hx, ht⟩
  have hnil : A.filter (childOf x) = [] := by
    rw [List.filter_eq_nil_iff]
    intro t htm hc
    have hp := (childOf_iff.1 hc).1
    rcases ha.parent t htm with h | h
    · rw [← hp] at hxr
      exact hxr h
    · rw [h] at hp
      exact hne (congrArg Prod.snd hp)
  have : rebuild (s :: A) n (s.ctx.traceId, s.ctx.spanId) = rebuild A n (s.ctx.traceId, s.ctx.spanId) := by
    refine rebuild_congr (fun key => R key.2 ∨ key = (s.ctx.traceId, s.ctx.spanId)) ?_ ?_ n _ (Or.inr rfl)
    · intro key hk
      rw [List.filter_cons_of_neg]
      intro hc
      have hp := (childOf_iff.1 hc).1
      rw [hx] at hp
      rcases hk with hk | hk
      · rw [← hp] at hk
        exact hxr hk
      · rw [← hp] at hk
        exact hne (congrArg Prod.snd hk).symm
    · intro t htm hp
      rcases List.mem_cons.1 htm with rfl | htm
      · rcases hp with hp | hp
        · have : t.parent.spanId = x.2 := congrArg Prod.snd hx
          rw [← this] at hxr
          exact absurd hp hxr
        · have h2 := congrArg Prod.snd hp
          have : t.parent.spanId = x.2 := congrArg Prod.snd hx
          exact absurd (h2.symm.trans this) hne
      · exact Or.inl (ha.own t htm)
  simp only [rebuild, List.filter_cons_of_pos hch, hnil, Forest.ofSpans, this]

theorem rebuild_nil (n : Nat) (x : List Byte × List Byte) : rebuild [] n x = .nil := by
  cases n <;> rfl

/-! ### The run -/

/-- Some spans look like a forest from `x`. -/
structure Shows (R : List Byte → Prop) (x : List Byte × List Byte) (A : List Span) (f : Forest) : Prop where
  within : Within R x A
  size : A.length = f.size
  tree : ∀ n, f.size ≤ n → rebuild A n x = f

theorem Shows.nil (R : List Byte → Prop) (x : List Byte × List Byte) : Shows R x [] .nil :=
  ⟨Within.nil R x, rfl, fun n _ => rebuild_nil n x⟩

theorem Shows.mono {R S : List Byte → Prop} {x : List Byte × List Byte} {A : List Span} {f : Forest}
    (h : Shows R x A f) (hrs : ∀ i, R i → S i) : Shows S x A f :=
  ⟨h.within.mono hrs, h.size, h.tree⟩

theorem Shows.append {RA RB R : List Byte → Prop} {x : List Byte × List Byte} {A B : List Span} {f g : Forest}
    (ha : Shows RA x A f) (hb : Shows RB x B g) (hd : ∀ i, RA i → ¬RB i) (hxa : ¬RA x.2) (hxb : ¬RB x.2)
    (hra : ∀ i, RA i → R i) (hrb : ∀ i, RB i → R i) : Shows R x (A ++ B) (f.append g) := by
  refine ⟨(ha.within.mono hra).append (hb.within.mono hrb), ?_, ?_⟩
  · rw [List.length_append, size_append, ha.size, hb.size]
  · intro n hn
    rw [size_append] at hn
    rw [rebuild_append ha.within hb.within hd hxa hxb, ha.tree n (by omega), hb.tree n (by omega)]

theorem Shows.cons {R R' : List Byte → Prop} {x : List Byte × List Byte} {s : Span} {A : List Span} {f : Forest}
    (ha : Shows R (s.ctx.traceId, s.ctx.spanId) A f) (hx : (s.parent.traceId, s.parent.spanId) = x)
    (ht : idValid x.1 = true → s.ctx.traceId = x.1) (hne : s.ctx.spanId ≠ x.2) (hxr : ¬R x.2)
    (hr : ∀ i, R i → R' i) (hs : R' s.ctx.spanId) :
    Shows R' x (s :: A) (.node s.name s.events f .nil) := by
  refine ⟨⟨?_, ?_⟩, ?_, ?_⟩
  · intro t ht
    rcases List.mem_cons.1 ht with rfl | ht
    · exact hs
    · exact hr _ (ha.within.own t ht)
  · intro t ht
    rcases List.mem_cons.1 ht with rfl | ht
    · exact Or.inr hx
    · rcases ha.within.parent t ht with h | h
      · exact Or.inl (hr _ h)
      · have := congrArg Prod.snd h
        simp only at this
        rw [this]
        exact Or.inl hs
  · simp only [List.length_cons, Forest.size, ha.size, Nat.add_zero]
  · intro n hn
    simp only [Forest.size] at hn
    match n, hn with
    | n + 1, hn => rw [rebuild_cons ha.within hx ht hne hxr, ha.tree n (by omega)]

/-- The span context of code that is traced, or of code that is not. -/
def Cur (parse : List Char → Option (List Char)) (sc : SpanContext) : Prop :=
  (Real parse sc ∧ sampledFlag sc.flags = true) ∨ { sc with remote := false } = SpanContext.zero

theorem Cur.key {parse : List Char → Option (List Char)} {sc : SpanContext} (h : Cur parse sc) :
    idValid sc.traceId = true ∧ Real parse sc ∧ sampledFlag sc.flags = true ∨
      idValid sc.traceId = false ∧ sc.flags = 0 ∧ sc.state = [] ∧ idValid sc.spanId = false ∧
        sc.traceId = SpanContext.zero.traceId ∧ sc.spanId = SpanContext.zero.spanId := by
  rcases h with ⟨h1, h2⟩ | h
  · exact Or.inl ⟨(idValid_iff _).2 h1.traceValid, h1, h2⟩
  · obtain ⟨t, s, f, st, r⟩ := sc
    simp only [SpanContext.zero, SpanContext.mk.injEq] at h
    obtain ⟨rfl, rfl, rfl, rfl, _⟩ := h
    exact Or.inr ⟨rfl, rfl, rfl, rfl, rfl, rfl⟩

theorem start_real {parse : List Char → Option (List Char)} (hp : parse [] = some []) {sc : SpanContext}
    (h : Cur parse sc) {fresh : List Byte × List Byte} (h1 : fresh.1.length = 16) (h2 : NonZero fresh.1)
    (h3 : fresh.2.length = 8) (h4 : NonZero fresh.2) :
    Real parse (start fresh sc) ∧ sampledFlag (start fresh sc).flags = true ∧
      (idValid sc.traceId = true → (start fresh sc).traceId = sc.traceId) := by
  rcases h.key with ⟨hv, hr, hs⟩ | ⟨hv, hf, hst, hsp, _, _⟩
  · refine ⟨⟨?_, ?_, h3, h4, hr.state⟩, ?_, ?_⟩
    · simp only [start, if_pos hv]; exact hr.traceLength
    · simp only [start, if_pos hv]; exact (idValid_iff _).1 hv
    · simp [start, hs]
    · intro _; simp only [start, if_pos hv]
  · refine ⟨⟨?_, ?_, h3, h4, ?_⟩, ?_, ?_⟩
    · simp [start, hv, h1]
    · simp [start, hv, h2]
    · simp [start, hst, hp]
    · simp [start, hv, hf, sampledFlag]
    · simp [hv]

theorem serverContext_cur {parse : List Char → Option (List Char)} {sc here : SpanContext} (h : Cur parse sc) :
    ∃ pc, serverContext parse here (marshal sc) = some pc ∧ Cur parse pc ∧
      (pc.traceId, pc.spanId) = (sc.traceId, sc.spanId) := by
  rcases h with ⟨h1, h2⟩ | h
  · have := C65_context h1
    refine ⟨{ sc with remote := true }, ?_, Or.inl ⟨⟨h1.1, h1.2, h1.3, h1.4, h1.5⟩, h2⟩, rfl⟩
    simp only [serverContext, marshal] at this ⊢
    rw [this]
  · obtain ⟨t, s, f, st, r⟩ := sc
    simp only [SpanContext.zero, SpanContext.mk.injEq] at h
    obtain ⟨rfl, rfl, rfl, rfl, _⟩ := h
    refine ⟨{ SpanContext.zero with remote := true }, ?_, Or.inr rfl, rfl⟩
    simp only [serverContext, marshal, getSpanContext]
    rw [show idFromHex 32 (hexEncode (List.replicate 16 0)) = none from by decide +kernel]

/-- `expect` with the names of the model. -/
theorem expect_call (cs : Method → Bool) (m : Method) (seen : Res) (served : Option Res) (sub rest : Acts) :
    expect cs (.call m seen served sub rest) =
      let server : Forest := match served with
        | none => .nil
        | some r => .node (serverName m) ((expect cs sub).1 ++ recordError r) (expect cs sub).2 .nil
      if cs m then ((expect cs rest).1, .node (clientName m) (recordError seen) server (expect cs rest).2)
      else (recordError seen ++ (expect cs rest).1, server.append (expect cs rest).2) := by
  simp only [expect, recordError_eq]
  cases served <;> rfl

theorem expect_append (cs : Method → Bool) (a b : Acts) :
    expect cs (a.append b) = ((expect cs a).1 ++ (expect cs b).1, (expect cs a).2.append (expect cs b).2) := by
  induction a with
  | nil => rfl
  | log m r ih => simp only [Acts.append, expect, ih, List.cons_append]
  | call m seen served sub r _ ih =>
    simp only [Acts.append, expect, ih]
    split
    · simp only [Forest.append]
    · simp only [List.append_assoc, append_assoc]

/-- The ids of a part of the run. -/
def Region (ids : List Nat → List Byte × List Byte) (S : List (List Nat)) (path : List Nat) (i : List Byte) : Prop :=
  ∃ q ∈ S, path <+: q ∧ i = (ids q).2

theorem prefix_branch {path q : List Nat} {a b : Nat} (h1 : path ++ [a] <+: q) (h2 : path ++ [b] <+: q) : a = b := by
  obtain ⟨t, rfl⟩ := h1
  obtain ⟨u, hu⟩ := h2
  simp only [List.append_assoc, List.append_cancel_left_eq, List.cons_append, List.nil_append, List.cons.injEq] at hu
  exact hu.1.symm

theorem region_disjoint {ids : List Nat → List Byte × List Byte} {S : List (List Nat)} (hg : Generators ids S)
    {path : List Nat} {a b : Nat} (hab : a ≠ b) (i : List Byte) (h1 : Region ids S (path ++ [a]) i)
    (h2 : Region ids S (path ++ [b]) i) : False := by
  obtain ⟨p, hp, hpp, rfl⟩ := h1
  obtain ⟨q, hq, hqq, he⟩ := h2
  have := hg.distinct p hp q hq he
  subst this
  exact hab (prefix_branch hpp hqq)

theorem Region.up {ids : List Nat → List Byte × List Byte} {S : List (List Nat)} {path : List Nat} {a : Nat}
    {i : List Byte} (h : Region ids S (path ++ [a]) i) : Region ids S path i := by
  obtain ⟨q, hq, hp, rfl⟩ := h
  exact ⟨q, hq, (List.prefix_append _ _).trans hp, rfl⟩

theorem Region.at {ids : List Nat → List Byte × List Byte} {S : List (List Nat)} {path : List Nat}
    (h : path ∈ S) : Region ids S path (ids path).2 := ⟨path, h, List.prefix_rfl, rfl⟩

/-- The whole run. -/
structure Fits (cfg : Config) (R : List Byte → Prop) (x : List Byte × List Byte) (o : Run) (p : Res × Acts) : Prop where
  result : o.result = p.1
  events : o.events = (expect cfg.clientSpans p.2).1
  shows_ : Shows R x o.spans (expect cfg.clientSpans p.2).2

/-- What is below the caller of a served call. -/
def serverForest (cfg : Config) (m : Method) (served : Option Res) (sub : Acts) : Forest :=
  match served with
  | none => .nil
  | some r => .node (serverName m) ((expect cfg.clientSpans sub).1 ++ recordError r) (expect cfg.clientSpans sub).2 .nil

/-- What the server did in a call. -/
def servedOf (net : Net) (callee : Code) : Option Res × Acts :=
  match net with
  | .requestLost _ => (none, .nil)
  | _ => (some (plain callee).1, (plain callee).2)

theorem plain_call (m : Method) (net : Net) (callee : Code) (k : Res → Code) :
    plain (.call m net callee k) = ((plain (k (seen net callee))).1,
      .call m (seen net callee) (servedOf net callee).1 (servedOf net callee).2 (plain (k (seen net callee))).2) := by
  cases net <;> rfl

theorem serve_fits {cfg : Config} (hp : cfg.parse [] = some []) {S : List (List Nat)} (hg : Generators cfg.ids S)
    {path : List Nat} {m : Method} {net : Net} {span : SpanContext} {callee : Code} (hc : Cur cfg.parse span)
    (hmem : path ++ [1] ∈ S)
    (hne : ∀ i, Region cfg.ids S (path ++ [1]) i ∨ Region cfg.ids S (path ++ [2]) i → i ≠ span.spanId)
    (service : SpanContext → Run)
    (ih : ∀ s, Cur cfg.parse s → (∀ i, Region cfg.ids S (path ++ [2]) i → i ≠ s.spanId) →
      Fits cfg (Region cfg.ids S (path ++ [2])) (s.traceId, s.spanId) (service s) (plain callee)) :
    (serve cfg (cfg.ids (path ++ [1])) m net span service).1 = seen net callee ∧
    Shows (fun i => Region cfg.ids S (path ++ [1]) i ∨ Region cfg.ids S (path ++ [2]) i) (span.traceId, span.spanId)
      (serve cfg (cfg.ids (path ++ [1])) m net span service).2
      (serverForest cfg m (servedOf net callee).1 (servedOf net callee).2) := by
  obtain ⟨pc, hpc, hcur, hkey⟩ := serverContext_cur (here := if net = .direct then span else SpanContext.zero) hc
  have hreal := start_real hp hcur (hg.traceLength _ hmem) (hg.traceValid _ hmem) (hg.spanLength _ hmem) (hg.spanValid _ hmem)
  have hfit := ih (start (cfg.ids (path ++ [1])) pc) (Or.inl ⟨hreal.1, hreal.2.1⟩) (by
    rintro i hi rfl
    exact region_disjoint hg (by decide : (2 : Nat) ≠ 1) _ hi (Region.at hmem))
  have hk1 : pc.traceId = span.traceId := congrArg Prod.fst hkey
  have hshow : Shows (fun i => Region cfg.ids S (path ++ [1]) i ∨ Region cfg.ids S (path ++ [2]) i)
      (span.traceId, span.spanId)
      (finish (serverName m) (start (cfg.ids (path ++ [1])) pc) pc
        ((service (start (cfg.ids (path ++ [1])) pc)).events ++
          recordError (service (start (cfg.ids (path ++ [1])) pc)).result) ++
        (service (start (cfg.ids (path ++ [1])) pc)).spans)
      (.node (serverName m) ((expect cfg.clientSpans (plain callee).2).1 ++ recordError (plain callee).1)
        (expect cfg.clientSpans (plain callee).2).2 .nil) := by
    rw [finish, if_pos hreal.2.1, hfit.events, hfit.result]
    refine Shows.cons (R := Region cfg.ids S (path ++ [2])) hfit.shows_ hkey ?_ ?_ ?_ (fun i hi => Or.inr hi)
      (Or.inl (Region.at hmem))
    · intro hv
      rw [← hk1] at hv ⊢
      exact hreal.2.2 hv
    · exact hne _ (Or.inl (Region.at hmem))
    · intro hi
      exact hne _ (Or.inr hi) rfl
  cases net with
  | requestLost r => exact ⟨rfl, Shows.nil _ _⟩
  | responseLost r =>
    simp only [serve, hpc]
    exact ⟨rfl, hshow⟩
  | direct =>
    simp only [if_true] at hpc
    simp only [serve, if_true, hpc]
    exact ⟨hfit.result, hshow⟩
  | sent =>
    simp only [reduceCtorEq, if_false] at hpc
    simp only [serve, reduceCtorEq, if_false, hpc]
    exact ⟨hfit.result, hshow⟩

theorem run_fits {cfg : Config} (hp : cfg.parse [] = some []) {S : List (List Nat)} (hg : Generators cfg.ids S)
    (code : Code) : ∀ (path : List Nat) (cur : SpanContext), (∀ q ∈ draws path code, q ∈ S) → Cur cfg.parse cur →
    (∀ i, Region cfg.ids S path i → i ≠ cur.spanId) →
    Fits cfg (Region cfg.ids S path) (cur.traceId, cur.spanId) (run cfg path cur code) (plain code) := by
  induction code with
  | ret r =>
    intro path cur _ _ _
    exact ⟨rfl, rfl, Shows.nil _ _⟩
  | log msg k ih =>
    intro path cur hd hc hne
    have := ih path cur hd hc hne
    exact ⟨this.result, by simp only [run, plain, expect, this.events], this.shows_⟩
  | both a b k iha ihb ihk =>
    intro path cur hd hc hne
    have ha := iha (path ++ [0]) cur (fun q hq => hd q (by simp [draws, hq])) hc (fun i hi => hne i hi.up)
    have hb := ihb (path ++ [1]) cur (fun q hq => hd q (by simp [draws, hq])) hc (fun i hi => hne i hi.up)
    have hk := ihk (plain a).1 (plain b).1 (path ++ [2]) cur (fun q hq => hd q (by simp [draws, hq])) hc
      (fun i hi => hne i hi.up)
    have hrun : run cfg path cur (.both a b k) =
        { result := (run cfg (path ++ [2]) cur (k (plain a).1 (plain b).1)).result
          events := (run cfg (path ++ [0]) cur a).events ++ (run cfg (path ++ [1]) cur b).events ++
            (run cfg (path ++ [2]) cur (k (plain a).1 (plain b).1)).events
          spans := (run cfg (path ++ [0]) cur a).spans ++ (run cfg (path ++ [1]) cur b).spans ++
            (run cfg (path ++ [2]) cur (k (plain a).1 (plain b).1)).spans } := by
      simp only [run, ha.result, hb.result]
    have hpl : plain (.both a b k) = ((plain (k (plain a).1 (plain b).1)).1,
        ((plain a).2.append (plain b).2).append (plain (k (plain a).1 (plain b).1)).2) := rfl
    rw [hrun, hpl]
    refine ⟨hk.result, ?_, ?_⟩
    · simp only [expect_append, ha.events, hb.events, hk.events]
    · simp only [expect_append]
      refine Shows.append (RA := fun i => Region cfg.ids S (path ++ [0]) i ∨ Region cfg.ids S (path ++ [1]) i)
        (Shows.append ha.shows_ hb.shows_ (fun i h1 h2 => region_disjoint hg (by decide) i h1 h2)
          (fun h => hne _ h.up rfl) (fun h => hne _ h.up rfl) (fun i h => Or.inl h) (fun i h => Or.inr h))
        hk.shows_ ?_ ?_ (fun h => hne _ h.up rfl) ?_ (fun i h => h.up)
      · rintro i (h | h) h2
        · exact region_disjoint hg (by decide) i h h2
        · exact region_disjoint hg (by decide) i h h2
      · rintro (h | h)
        · exact hne _ h.up rfl
        · exact hne _ h.up rfl
      · rintro i (h | h)
        · exact h.up
        · exact h.up
  | call m net callee k ihc ihk =>
    intro path cur hd hc hne
    have h0 : path ++ [0] ∈ S := hd _ (by simp [draws])
    have h1 : path ++ [1] ∈ S := hd _ (by simp [draws])
    have hk := ihk (seen net callee) (path ++ [3]) cur (fun q hq => hd q (by simp [draws, hq])) hc
      (fun i hi => hne i hi.up)
    have hcallee := ihc (path ++ [2])
    rw [plain_call]
    cases hcs : cfg.clientSpans m with
    | false =>
      have hsv := serve_fits (m := m) (net := net) (callee := callee) hp hg hc h1
        (fun i hi => hne i (hi.elim Region.up Region.up))
        (fun s => run cfg (path ++ [2]) s callee)
        (fun s hs hn => hcallee s (fun q hq => hd q (by simp [draws, hq])) hs hn)
      have hrun : run cfg path cur (.call m net callee k) =
          { result := (run cfg (path ++ [3]) cur (k (seen net callee))).result
            events := recordError (seen net callee) ++ (run cfg (path ++ [3]) cur (k (seen net callee))).events
            spans := (serve cfg (cfg.ids (path ++ [1])) m net cur (fun s => run cfg (path ++ [2]) s callee)).2 ++
              (run cfg (path ++ [3]) cur (k (seen net callee))).spans } := by
        simp only [run, hcs, Bool.false_eq_true, if_false, hsv.1, List.nil_append]
      rw [hrun]
      refine ⟨hk.result, ?_, ?_⟩
      · simp only [expect_call, hcs, hk.events, Bool.false_eq_true, if_false]
      · simp only [expect_call, hcs, Bool.false_eq_true, if_false]
        refine Shows.append hsv.2 hk.shows_ ?_ ?_ (fun h => hne _ h.up rfl) ?_ (fun i h => h.up)
        · rintro i (h | h) h2
          · exact region_disjoint hg (by decide) i h h2
          · exact region_disjoint hg (by decide) i h h2
        · rintro (h | h)
          · exact hne _ h.up rfl
          · exact hne _ h.up rfl
        · rintro i (h | h)
          · exact h.up
          · exact h.up
    | true =>
      have hreal := start_real hp hc (hg.traceLength _ h0) (hg.traceValid _ h0) (hg.spanLength _ h0) (hg.spanValid _ h0)
      have hsv := serve_fits (m := m) (net := net) (callee := callee) hp hg
        (span := start (cfg.ids (path ++ [0])) cur) (Or.inl ⟨hreal.1, hreal.2.1⟩) h1
        (by
          rintro i (hi | hi) rfl
          · exact region_disjoint hg (by decide : (1 : Nat) ≠ 0) _ hi (Region.at h0)
          · exact region_disjoint hg (by decide : (2 : Nat) ≠ 0) _ hi (Region.at h0))
        (fun s => run cfg (path ++ [2]) s callee)
        (fun s hs hn => hcallee s (fun q hq => hd q (by simp [draws, hq])) hs hn)
      have hrun : run cfg path cur (.call m net callee k) =
          { result := (run cfg (path ++ [3]) cur (k (seen net callee))).result
            events := (run cfg (path ++ [3]) cur (k (seen net callee))).events
            spans := (⟨clientName m, start (cfg.ids (path ++ [0])) cur, cur, recordError (seen net callee)⟩ ::
              (serve cfg (cfg.ids (path ++ [1])) m net (start (cfg.ids (path ++ [0])) cur)
                (fun s => run cfg (path ++ [2]) s callee)).2) ++
              (run cfg (path ++ [3]) cur (k (seen net callee))).spans } := by
        simp only [run, hcs, if_true, hsv.1, finish, hreal.2.1, List.cons_append, List.nil_append]
      rw [hrun]
      refine ⟨hk.result, ?_, ?_⟩
      · simp only [expect_call, hcs, hk.events, if_true]
      · simp only [expect_call, hcs, if_true]
        have hcons : Shows (fun i => Region cfg.ids S (path ++ [0]) i ∨ Region cfg.ids S (path ++ [1]) i ∨
            Region cfg.ids S (path ++ [2]) i) (cur.traceId, cur.spanId)
            (⟨clientName m, start (cfg.ids (path ++ [0])) cur, cur, recordError (seen net callee)⟩ ::
              (serve cfg (cfg.ids (path ++ [1])) m net (start (cfg.ids (path ++ [0])) cur)
                (fun s => run cfg (path ++ [2]) s callee)).2)
            (.node (clientName m) (recordError (seen net callee))
              (serverForest cfg m (servedOf net callee).1 (servedOf net callee).2) .nil) := by
          refine Shows.cons hsv.2 rfl (fun hv => hreal.2.2 hv) ?_ ?_ (fun i hi => Or.inr hi) (Or.inl (Region.at h0))
          · exact hne _ (Region.at h0).up
          · rintro (h | h)
            · exact hne _ h.up rfl
            · exact hne _ h.up rfl
        refine Shows.append hcons hk.shows_ ?_ ?_ (fun h => hne _ h.up rfl) ?_ (fun i h => h.up)
        · rintro i (h | h | h) h2
          · exact region_disjoint hg (by decide) i h h2
          · exact region_disjoint hg (by decide) i h h2
          · exact region_disjoint hg (by decide) i h h2
        · rintro (h | h | h)
          · exact hne _ h.up rfl
          · exact hne _ h.up rfl
          · exact hne _ h.up rfl
        · rintro i (h | h | h)
          · exact h.up
          · exact h.up
          · exact h.up

/-- **C65** (traces).  Take any code that calls instrumented services, which call others, in
sequence or concurrently, with requests and responses that may be lost; run it in a context
with a sampled span, or in one without any.  If the id generators do not repeat themselves,
then the spans that reach the collector are exactly those that the specification expects for
the calls that were made: a collector that arranges them by the ids of their parents shows the
calls, each below the one that made it and in the same trace, with the messages and errors of
each.  The caller's own span gets the events expected for it. -/
theorem C65_trace (cfg : Config) (hp : cfg.parse [] = some []) (path : List Nat) (cur : SpanContext) (code : Code)
    (hg : Generators cfg.ids (draws path code))
    (hc : (Real cfg.parse cur ∧ cur.flags.val % 2 = 1 ∧ ∀ p ∈ draws path code, (cfg.ids p).2 ≠ cur.spanId) ∨
      cur = SpanContext.zero) :
    let o := run cfg path cur code
    let expected := expect cfg.clientSpans (plain code).2
    (∀ depth, o.spans.length ≤ depth → rebuild o.spans depth (cur.traceId, cur.spanId) = expected.2) ∧
      o.spans.length = expected.2.size ∧ o.events = expected.1 := by
  have hcur : Cur cfg.parse cur := hc.imp (fun h => ⟨h.1, (sampledFlag_iff _).2 h.2.1⟩) (fun h => by rw [h]; rfl)
  have hne : ∀ i, Region cfg.ids (draws path code) path i → i ≠ cur.spanId := by
    rintro i ⟨q, hq, _, rfl⟩
    rcases hc with h | rfl
    · exact h.2.2 q hq
    · intro e
      have := hg.spanValid q hq
      rw [e] at this
      exact absurd ((idValid_iff _).2 this) (by decide)
  have h := run_fits hp hg code path cur (fun q hq => hq) hcur hne
  refine ⟨fun depth hd => h.shows_.tree depth (by rw [← h.shows_.size]; exact hd), h.shows_.size, h.events⟩

/-- **C65** (transparency).  Whatever the context, the ids and the sampling: code that calls
instrumented services returns what it returns without them. -/
theorem C65_transparent (cfg : Config) (path : List Nat) (cur : SpanContext) (code : Code) :
    (run cfg path cur code).result = (plain code).1 := by
  induction code generalizing path cur with
  | ret r => rfl
  | log msg k ih => exact ih path cur
  | both a b k iha ihb ihk =>
    simp only [run, plain, iha, ihb, ihk]
  | call m net callee k ihc ihk =>
    have hctx : ∀ here sc, ∃ pc, serverContext cfg.parse here (marshal sc) = some pc := by
      intro here sc
      simp only [serverContext, marshal, getSpanContext, hexDecode_encode]
      cases idFromHex 32 (hexEncode sc.traceId) with
      | none => exact ⟨_, rfl⟩
      | some t =>
        cases idFromHex 16 (hexEncode sc.spanId) with
        | none => exact ⟨_, rfl⟩
        | some s =>
          cases cfg.parse sc.state with
          | none => exact ⟨_, rfl⟩
          | some st => exact ⟨_, rfl⟩
    have hs : ∀ span, (serve cfg (cfg.ids (path ++ [1])) m net span (fun s => run cfg (path ++ [2]) s callee)).1 =
        seen net callee := by
      intro span
      cases net with
      | requestLost r => rfl
      | responseLost r =>
        obtain ⟨pc, hpc⟩ := hctx SpanContext.zero span
        simp only [serve, reduceCtorEq, if_false, hpc]
        rfl
      | direct =>
        obtain ⟨pc, hpc⟩ := hctx span span
        simp only [serve, if_true, hpc, ihc]
        rfl
      | sent =>
        obtain ⟨pc, hpc⟩ := hctx SpanContext.zero span
        simp only [serve, reduceCtorEq, if_false, hpc, ihc]
        rfl
    rw [plain_call]
    simp only [run, hs, ihk]

/-- **C65** (sampling).  If the caller's span is not sampled, nothing that the calls below it
do reaches the collector. -/
theorem C65_unsampled (cfg : Config) (path : List Nat) (cur : SpanContext) (code : Code)
    (hg : Generators cfg.ids (draws path code)) (hr : Real cfg.parse cur) (hs : cur.flags.val % 2 = 0) :
    (run cfg path cur code).spans = [] := by
  suffices H : ∀ (S : List (List Nat)), Generators cfg.ids S → ∀ (code : Code) (path : List Nat) (cur : SpanContext),
      (∀ q ∈ draws path code, q ∈ S) → Real cfg.parse cur → sampledFlag cur.flags = false →
      (run cfg path cur code).spans = [] from
    H _ hg code path cur (fun q h => h) hr (by simp [sampledFlag, hs])
  intro S hg code
  have hstart : ∀ p ∈ S, ∀ sc, Real cfg.parse sc → sampledFlag sc.flags = false →
      Real cfg.parse (start (cfg.ids p) sc) ∧ sampledFlag (start (cfg.ids p) sc).flags = false := by
    intro p hp sc h1 h2
    refine ⟨⟨?_, ?_, hg.spanLength p hp, hg.spanValid p hp, h1.state⟩, ?_⟩
    · simp only [start, if_pos ((idValid_iff _).2 h1.traceValid)]; exact h1.traceLength
    · simp only [start, if_pos ((idValid_iff _).2 h1.traceValid)]; exact h1.traceValid
    · simp [start, (idValid_iff _).2 h1.traceValid, (idValid_iff _).2 h1.spanValid, h2]
  induction code with
  | ret r => intros; rfl
  | log msg k ih => intro path cur hd h1 h2; exact ih path cur hd h1 h2
  | both a b k iha ihb ihk =>
    intro path cur hd h1 h2
    have e1 := C65_transparent cfg (path ++ [0]) cur a
    have e2 := C65_transparent cfg (path ++ [1]) cur b
    simp only [run, e1, e2]
    rw [iha _ _ (fun q hq => hd q (by simp [draws, hq])) h1 h2, ihb _ _ (fun q hq => hd q (by simp [draws, hq])) h1 h2,
      ihk _ _ _ _ (fun q hq => hd q (by simp [draws, hq])) h1 h2]
    rfl
  | call m net callee k ihc ihk =>
    intro path cur hd h1 h2
    have m0 : path ++ [0] ∈ S := hd _ (by simp [draws])
    have m1 : path ++ [1] ∈ S := hd _ (by simp [draws])
    have hserve : ∀ span, Real cfg.parse span → sampledFlag span.flags = false →
        serve cfg (cfg.ids (path ++ [1])) m net span (fun s => run cfg (path ++ [2]) s callee) = (seen net callee, []) := by
      intro span g1 g2
      have hctx : ∀ here, serverContext cfg.parse here (marshal span) = some { span with remote := true } := by
        intro here
        have := C65_context g1
        simp only [serverContext, marshal] at this ⊢
        rw [this]
      have hpc := hstart _ m1 { span with remote := true } ⟨g1.1, g1.2, g1.3, g1.4, g1.5⟩ g2
      have hin := ihc (path ++ [2]) _ (fun q hq => hd q (by simp [draws, hq])) hpc.1 hpc.2
      cases net with
      | requestLost r => rfl
      | responseLost r =>
        simp only [serve, hctx, finish, hpc.2, hin]
        rfl
      | direct =>
        simp only [serve, hctx, finish, hpc.2, hin, C65_transparent]
        rfl
      | sent =>
        simp only [serve, hctx, finish, hpc.2, hin, C65_transparent]
        rfl
    have hk := ihk (seen net callee) (path ++ [3]) cur (fun q hq => hd q (by simp [draws, hq])) h1 h2
    cases hcs : cfg.clientSpans m with
    | false =>
      simp only [run, hcs, Bool.false_eq_true, if_false, hserve cur h1 h2, hk]
      rfl
    | true =>
      have hst := hstart _ m0 cur h1 h2
      simp only [run, hcs, if_true, hserve _ hst.1 hst.2, hk, finish, hst.2]
      rfl

/-- **C65** does not hold for a server: there is a trace context, with valid ids but without
flags, for which the server wrapper panics instead of serving the request. -/
theorem C65_server_panics_refuted : ∃ w : Wire, ∀ (parse : List Char → Option (List Char)) (here : SpanContext),
    serverContext parse here w = none := by
  refine ⟨.json ⟨"0102030405060708090a0b0c0d0e0f10".toList, "0102030405060708".toList, [], [], false⟩, ?_⟩
  intro parse here
  have h1 : idFromHex 32 "0102030405060708090a0b0c0d0e0f10".toList = some [1,2,3,4,5,6,7,8,9,10,11,12,13,14,15,16] := by
    decide +kernel
  have h2 : idFromHex 16 "0102030405060708".toList = some [1,2,3,4,5,6,7,8] := by decide +kernel
  simp only [serverContext, getSpanContext, h1, h2, hexDecode]

/-- **C65** (server, guarded).  The server wrapper serves every other request: one whose trace
context has flags, or is not accepted. -/
theorem C65_server_partial (parse : List Char → Option (List Char)) (here : SpanContext) (w : Wire)
    (h : ∀ c, w = .json c → c.traceFlags ≠ []) : serverContext parse here w ≠ none := by
  cases w with
  | empty => simp [serverContext]
  | junk => simp [serverContext, getSpanContext]
  | json c =>
    have hf := h c rfl
    simp only [serverContext, getSpanContext]
    cases idFromHex 32 c.traceID with
    | none => simp
    | some t =>
      cases idFromHex 16 c.spanID with
      | none => simp
      | some s =>
        match hfl : c.traceFlags with
        | [] => exact absurd hfl hf
        | [_] => simp [hexDecode]
        | a :: b :: cs =>
          simp only [hexDecode]
          cases fromHex a <;> cases fromHex b <;> cases hexDecode cs <;> cases parse c.traceState <;> simp

/-! ### An example -/

/-- Ids for paths of at most eight small numbers. -/
def exIds (p : List Nat) : List Byte × List Byte :=
  let id : List Byte := ((p.map fun n => Fin.ofNat 256 (n + 1)) ++ List.replicate 8 0).take 8
  (id ++ List.replicate 8 7, id)

/-- All methods of the service `b` have client spans, others have none. -/
def exCfg : Config := ⟨exIds, fun m => m.base = ['b'], some⟩

/-- A method that calls two services concurrently, one of which fails, and then another one
whose response is lost. -/
def exCode : Code :=
  .log "hi".toList <|
  .both
    (.call ⟨['a'], ['a'], ['f']⟩ .sent (.log "in f".toList (.ret ⟨[], some "no".toList⟩)) .ret)
    (.call ⟨['b'], ['b'], ['g']⟩ .direct
      (.call ⟨['c'], ['c'], ['h']⟩ .sent (.ret ⟨[3], none⟩) fun r => .ret ⟨r.rets ++ [4], r.err⟩) .ret)
    fun x y => .call ⟨['b'], ['b'], ['g']⟩ (.responseLost ⟨[], some "timeout".toList⟩) (.ret ⟨[5], none⟩)
      fun _ => .ret ⟨y.rets, x.err⟩

example : (run exCfg [] SpanContext.zero exCode).result = ⟨[3, 4], some "no".toList⟩ := by decide +kernel

example : expect exCfg.clientSpans (plain exCode).2 =
    ([.log "hi".toList, .error "no".toList],
      .node "aServer_f".toList [.log "in f".toList, .error "no".toList] .nil <|
      .node "bClient_g".toList [] (.node "bServer_g".toList [] (.node "cServer_h".toList [] .nil .nil) .nil) <|
      .node "bClient_g".toList [.error "timeout".toList] (.node "bServer_g".toList [] .nil .nil) .nil) := by
  decide +kernel

theorem exGenerators : Generators exCfg.ids (draws [] exCode) := by
  refine ⟨?_, ?_, ?_, ?_, ?_⟩ <;> decide +kernel

example : rebuild (run exCfg [] SpanContext.zero exCode).spans 6 (SpanContext.zero.traceId, SpanContext.zero.spanId) =
    (expect exCfg.clientSpans (plain exCode).2).2 :=
  (C65_trace exCfg rfl [] SpanContext.zero exCode exGenerators (Or.inr rfl)).1 6 (by decide +kernel)

/-- A sampled span. -/
def exSpan : SpanContext := ⟨List.replicate 16 9, List.replicate 8 9, 1, [], true⟩

example : rebuild (run exCfg [] exSpan exCode).spans 6 (exSpan.traceId, exSpan.spanId) =
    (expect exCfg.clientSpans (plain exCode).2).2 :=
  (C65_trace exCfg rfl [] exSpan exCode exGenerators
    (Or.inl ⟨⟨rfl, (idValid_iff _).1 rfl, rfl, (idValid_iff _).1 rfl, rfl⟩, rfl, by decide +kernel⟩)).1 6 (by decide +kernel)

end Verif.Tracing.Ot
