import Verif.Grpc.Spec
/-
The declarations that the builder makes: every struct is declared completely, in terms of a
translation of types that does not depend on the builder's state.
-/
namespace Verif.Grpc

/-- The translation of a type, without the builder. -/
def protoOf (base : Str) : Ty → Option (ProtoTy × GTy)
  | .user t => some (.message (msgName base t), .user (msgName base t))
  | .basic b => (basicToGrpc b).map fun s => (.scalar s, .basic (grpcToBasic s))
  | .pointer t => (protoOf base t).map fun r => (r.1, .pointer r.2)
  | .map k v => (getMapKeyType k).bind fun s => (protoOf base v).map fun r => (.map s r.1, .map k r.2)
  | .slice t =>
    if t = .basic .byte then some (.bytes, .slice (.basic (some .byte)))
    else match t with
      | .map _ _ => none
      | t => (protoOf base t).map fun r => (.repeated r.1, .slice r.2)
  | .other => none

/-- The fields of a message, without the builder. -/
def fieldsFor (base : Str) : List ParsedField → List Field → Option (List Field)
  | [], acc => some acc
  | ⟨none, _⟩ :: fs, acc => fieldsFor base fs acc
  | ⟨some x, ty⟩ :: fs, acc => match protoOf base ty with
    | some r => fieldsFor base fs (acc ++ [⟨ty, r.1, r.2, x, acc.length + 1⟩])
    | none => none

/-- The structs that the builder knows. -/
def keys (b : Builder) : List UserTy := b.structs.map (·.1)

/-- New entries of the builder. -/
structure NewOk (env : Structs) (base : Str) (R : UserTy → Prop) (old all : List UserTy)
    (new : List (UserTy × List Field)) : Prop where
  complete : ∀ e ∈ new, ∃ ds, env e.1 = some ds ∧ fieldsFor base (parseFields ds) [] = some e.2
  fresh : ∀ e ∈ new, e.1 ∉ old
  nodup : (new.map (·.1)).Nodup
  closed : ∀ e ∈ new, ∀ f ∈ e.2, ∀ u, Mentions u f.src → u ∈ all
  reach : ∀ e ∈ new, R e.1

/-- The builder `b'` extends `b`. -/
def Ext (env : Structs) (R : UserTy → Prop) (b b' : Builder) : Prop :=
  b'.name = b.name ∧ ∃ new, b'.structs = b.structs ++ new ∧
    NewOk env b.name R (keys b) (keys b') new

theorem NewOk.nil {env : Structs} {base : Str} {R old all} : NewOk env base R old all [] :=
  ⟨by simp, by simp, by simp, by simp, by simp⟩

theorem NewOk.append {env : Structs} {base : Str} {R old all mid new1 new2}
    (h1 : NewOk env base R old mid new1) (h2 : NewOk env base R (old ++ new1.map (·.1)) all new2)
    (hsub : ∀ u ∈ mid, u ∈ all) : NewOk env base R old all (new1 ++ new2) := by
  refine ⟨?_, ?_, ?_, ?_, ?_⟩
  · intro e he
    rcases List.mem_append.1 he with h | h
    · exact h1.complete e h
    · exact h2.complete e h
  · intro e he
    rcases List.mem_append.1 he with h | h
    · exact h1.fresh e h
    · intro ho
      exact h2.fresh e h (List.mem_append.2 (Or.inl ho))
  · rw [List.map_append]
    refine List.nodup_append.2 ⟨h1.nodup, h2.nodup, ?_⟩
    intro a ha c hc hac
    obtain ⟨e, he, rfl⟩ := List.mem_map.1 hc
    exact h2.fresh e he (List.mem_append.2 (Or.inr (hac ▸ ha)))
  · intro e he
    rcases List.mem_append.1 he with h | h
    · intro f hf u hu
      exact hsub u (h1.closed e h f hf u hu)
    · exact h2.closed e h
  · intro e he
    rcases List.mem_append.1 he with h | h
    · exact h1.reach e h
    · exact h2.reach e h

theorem NewOk.mono {env : Structs} {base : Str} {R R' : UserTy → Prop} {old all new}
    (h : NewOk env base R old all new) (hR : ∀ t, R t → R' t) : NewOk env base R' old all new :=
  ⟨h.complete, h.fresh, h.nodup, h.closed, fun e he => hR _ (h.reach e he)⟩

theorem Ext.refl {env : Structs} {R b} : Ext env R b b :=
  ⟨rfl, [], by simp, .nil⟩

theorem Ext.keys {env : Structs} {R b b'} (h : Ext env R b b') : ∀ t ∈ keys b, t ∈ keys b' := by
  obtain ⟨_, new, hs, _⟩ := h
  intro t ht
  simp only [Grpc.keys, hs, List.map_append, List.mem_append] at ht ⊢
  exact Or.inl ht

theorem Ext.trans {env : Structs} {R b b' b''} (h1 : Ext env R b b') (h2 : Ext env R b' b'') :
    Ext env R b b'' := by
  have hk := h2.keys
  obtain ⟨n1, new1, s1, k1⟩ := h1
  obtain ⟨n2, new2, s2, k2⟩ := h2
  refine ⟨n2.trans n1, new1 ++ new2, by rw [s2, s1, List.append_assoc], ?_⟩
  rw [n1] at k2
  refine k1.append ?_ hk
  have : Grpc.keys b' = Grpc.keys b ++ new1.map (·.1) := by simp [Grpc.keys, s1]
  rw [← this]
  exact k2

theorem Ext.mono {env : Structs} {R R' : UserTy → Prop} {b b'} (h : Ext env R b b')
    (hR : ∀ t, R t → R' t) : Ext env R' b b' :=
  ⟨h.1, h.2.choose, h.2.choose_spec.1, h.2.choose_spec.2.mono hR⟩

theorem find_none {b : Builder} {t : UserTy} : b.find t = none ↔ t ∉ keys b := by
  unfold Builder.find keys
  simp only [Option.map_eq_none_iff, List.find?_eq_none, List.mem_map, not_exists, not_and]
  constructor
  · intro h e he het
    exact h e he (decide_eq_true het)
  · intro h e he het
    exact h e he (of_decide_eq_true het)

theorem fieldsFor_src {base : Str} {R : Ty → Prop} : ∀ (fs : List ParsedField) (acc out : List Field),
    fieldsFor base fs acc = some out → (∀ f ∈ acc, R f.src) →
    (∀ p ∈ fs, p.name.isSome = true → R p.ty) → ∀ f ∈ out, R f.src
  | [], acc, out, h, ha, _ => by
    simp only [fieldsFor, Option.some.injEq] at h
    exact h ▸ ha
  | ⟨none, ty⟩ :: fs, acc, out, h, ha, hp => by
    rw [fieldsFor] at h
    exact fieldsFor_src fs acc out h ha fun p hp' => hp p (List.mem_cons_of_mem _ hp')
  | ⟨some x, ty⟩ :: fs, acc, out, h, ha, hp => by
    rw [fieldsFor] at h
    split at h
    · rename_i r hr
      refine fieldsFor_src fs _ out h ?_ fun p hp' => hp p (List.mem_cons_of_mem _ hp')
      intro f hf
      rcases List.mem_append.1 hf with h' | h'
      · exact ha f h'
      · rw [List.mem_singleton.1 h']
        exact hp ⟨some x, ty⟩ List.mem_cons_self rfl
    · cases h

/-- What a successful translation of a type achieves. -/
def Good (env : Structs) (rec : Builder → Ty → Res (Builder × ProtoTy × GTy)) : Prop :=
  ∀ b ty b' p g, rec b ty = .ok (b', p, g) →
    protoOf b.name ty = some (p, g) ∧ Ext env (Reach env ty) b b' ∧ ∀ u, Mentions u ty → u ∈ keys b'

theorem append_structs {b : Builder} {t : UserTy} {pre post fs src p g x}
    (hb : b.structs = pre ++ (t, fs) :: post) (hpre : t ∉ pre.map (·.1)) (hpost : t ∉ post.map (·.1)) :
    (b.append t src p g x).structs = pre ++ (t, fs ++ [⟨src, p, g, x, fs.length + 1⟩]) :: post := by
  have hid : ∀ l : List (UserTy × List Field), t ∉ l.map (·.1) →
      l.map (fun e => if e.1 = t then (e.1, e.2 ++ [⟨src, p, g, x, e.2.length + 1⟩]) else e) = l := by
    intro l hl
    conv => rhs; rw [← List.map_id l]
    refine List.map_congr_left fun e he => ?_
    have : e.1 ≠ t := fun h => hl (List.mem_map.2 ⟨e, he, h⟩)
    simp [this]
  simp only [Builder.append, hb, List.map_append, List.map_cons, hid pre hpre, hid post hpost]
  simp

theorem addFields_good {env : Structs} {rec : Builder → Ty → Res (Builder × ProtoTy × GTy)}
    (hrec : Good env rec) {t : UserTy} {R : UserTy → Prop} : ∀ (fs : List ParsedField) (b b' : Builder) (pre post fs0),
    addFields rec t fs b = .ok b' → b.structs = pre ++ (t, fs0) :: post →
    t ∉ pre.map (·.1) → t ∉ post.map (·.1) →
    (∀ p ∈ fs, p.name.isSome = true → ∀ u, Reach env p.ty u → R u) →
    b'.name = b.name ∧ ∃ new fs', b'.structs = pre ++ (t, fs') :: (post ++ new) ∧
      fieldsFor b.name fs fs0 = some fs' ∧ NewOk env b.name R (keys b) (keys b') new ∧
      ∀ p ∈ fs, p.name.isSome = true → ∀ u, Mentions u p.ty → u ∈ keys b'
  | [], b, b', pre, post, fs0, h, hb, _, _, _ => by
    simp only [addFields, Res.ok.injEq] at h
    subst h
    exact ⟨rfl, [], fs0, by simp [hb], rfl, .nil, by simp⟩
  | ⟨none, ty⟩ :: fs, b, b', pre, post, fs0, h, hb, h1, h2, hR => by
    rw [addFields] at h
    obtain ⟨k1, new, fs', k2, k3, k4, k5⟩ := addFields_good hrec fs b b' pre post fs0 h hb h1 h2
      fun p hp => hR p (List.mem_cons_of_mem _ hp)
    refine ⟨k1, new, fs', k2, by rw [fieldsFor]; exact k3, k4, ?_⟩
    intro p hp
    rcases List.mem_cons.1 hp with rfl | hp
    · simp
    · exact k5 p hp
  | ⟨some x, ty⟩ :: fs, b, b', pre, post, fs0, h, hb, h1, h2, hR => by
    rw [addFields] at h
    split at h
    · rename_i b1 p g hr
      obtain ⟨r1, ⟨r2, new1, r3, r4⟩, r5⟩ := hrec b ty b1 p g hr
      have hk : keys b = pre.map (·.1) ++ t :: post.map (·.1) := by simp [keys, hb]
      have hb1 : b1.structs = pre ++ (t, fs0) :: (post ++ new1) := by
        rw [r3, hb]; simp
      have hpost1 : t ∉ (post ++ new1).map (·.1) := by
        rw [List.map_append, List.mem_append]
        rintro (h' | h')
        · exact h2 h'
        · obtain ⟨e, he, het⟩ := List.mem_map.1 h'
          refine r4.fresh e he ?_
          rw [hk, het]
          simp
      have hb2 := append_structs (src := ty) (p := p) (g := g) (x := x) hb1 h1 hpost1
      have hk2 : keys (b1.append t ty p g x) = keys b1 := by
        simp only [keys, hb2, hb1, List.map_append, List.map_cons]
      obtain ⟨k1, new2, fs', k2, k3, k4, k5⟩ := addFields_good hrec fs _ b' pre (post ++ new1) _ h hb2 h1
        hpost1 fun p hp => hR p (List.mem_cons_of_mem _ hp)
      have hname : (b1.append t ty p g x).name = b.name := r2
      rw [hname] at k1 k3 k4
      have hkb1 : keys b1 = keys b ++ new1.map (·.1) := by simp [keys, r3]
      have hsub : ∀ u ∈ keys b1, u ∈ keys b' := by
        intro u hu
        simp only [keys, hb1, k2, List.map_append, List.map_cons, List.mem_append, List.mem_cons] at hu ⊢
        rcases hu with h | h | h | h
        · exact Or.inl h
        · exact Or.inr (Or.inl h)
        · exact Or.inr (Or.inr (Or.inl (Or.inl h)))
        · exact Or.inr (Or.inr (Or.inl (Or.inr h)))
      refine ⟨k1, new1 ++ new2, fs', by rw [k2, List.append_assoc], ?_, ?_, ?_⟩
      · rw [fieldsFor, r1]
        exact k3
      · refine (r4.mono (hR ⟨some x, ty⟩ List.mem_cons_self rfl)).append ?_ hsub
        rw [← hkb1, ← hk2]
        exact k4
      · intro q hq
        rcases List.mem_cons.1 hq with rfl | hq
        · intro _ u hu
          exact hsub u (r5 u hu)
        · exact k5 q hq
    · cases h
    · cases h

theorem Reach.of_field {env : Structs} {t : UserTy} {ds d u} (hds : env t = some ds) (hd : d ∈ ds)
    (hn : d.names ≠ []) (h : Reach env d.ty u) : Reach env (.user t) u := by
  induction h with
  | here hm => exact .field (.here rfl) hds hd hn hm
  | field _ h2 h3 h4 h5 ih => exact .field ih h2 h3 h4 h5

theorem Reach.of_mentions {env : Structs} {τ σ u} (h : ∀ t, Mentions t τ → Mentions t σ)
    (hr : Reach env τ u) : Reach env σ u := by
  induction hr with
  | here hm => exact .here (h _ hm)
  | field _ h2 h3 h4 h5 ih => exact .field ih h2 h3 h4 h5

theorem parseFields_mem {ds : List FieldDecl} {p : ParsedField} (hp : p ∈ parseFields ds)
    (hs : p.name.isSome = true) : ∃ d ∈ ds, d.names ≠ [] ∧ p.ty = d.ty := by
  obtain ⟨d, hd, rfl⟩ := List.mem_map.1 hp
  refine ⟨d, hd, ?_, rfl⟩
  intro hn
  simp [hn] at hs

theorem getMapKeyType_not_user {k : Ty} {s : Scalar} (h : getMapKeyType k = some s) :
    ∃ b, k = .basic b := by
  cases k with
  | basic b => exact ⟨b, rfl⟩
  | _ => cases h

theorem getGRPCType_good (env : Structs) : ∀ n, Good env (getGRPCType env n)
  | 0 => by intro b ty b' p g h; cases h
  | n + 1 => by
    have ih := getGRPCType_good env n
    intro b ty b' p g h
    cases ty with
    | user t =>
      rw [getGRPCType] at h
      split at h
      · rename_i fs hf
        simp only [Res.ok.injEq, Prod.mk.injEq] at h
        obtain ⟨rfl, rfl, rfl⟩ := h
        refine ⟨rfl, .refl, ?_⟩
        intro u hu
        have : u = t := (show t = u from hu).symm
        subst this
        exact Decidable.byContradiction fun hn => by
          rw [find_none.2 hn] at hf; cases hf
      · rename_i hf
        have hnk := find_none.1 hf
        split at h
        · cases h
        · rename_i ds hds
          split at h
          · rename_i b1 ha
            simp only [Res.ok.injEq, Prod.mk.injEq] at h
            obtain ⟨rfl, rfl, rfl⟩ := h
            obtain ⟨k1, new, fs', k2, k3, k4, k5⟩ := addFields_good (R := Reach env (.user t)) ih
              (parseFields ds) _ b1 b.structs [] [] ha rfl hnk (by simp) (by
                intro p hp hs u hu
                obtain ⟨d, hd, hdn, hty⟩ := parseFields_mem hp hs
                rw [hty] at hu
                exact Reach.of_field hds hd hdn hu)
            have hkb : keys { b with structs := b.structs ++ [(t, [])] } = keys b ++ [t] := by
              simp [keys]
            rw [hkb] at k4
            have ht : t ∈ keys b1 := by simp [keys, k2]
            refine ⟨rfl, ⟨k1, (t, fs') :: new, by simpa using k2, ?_⟩, ?_⟩
            · have hone : NewOk env b.name (Reach env (.user t)) (keys b) (keys b1) [(t, fs')] := by
                refine ⟨?_, ?_, ?_, ?_, ?_⟩
                · intro e he
                  rw [List.mem_singleton.1 he]
                  exact ⟨ds, hds, k3⟩
                · intro e he
                  rw [List.mem_singleton.1 he]
                  exact hnk
                · simp
                · intro e he
                  rw [List.mem_singleton.1 he]
                  intro f hf u hu
                  exact fieldsFor_src (R := fun ty => ∀ u, Mentions u ty → u ∈ keys b1) _ _ _ k3
                    (by simp) (fun p hp hs => k5 p hp hs) f hf u hu
                · intro e he
                  rw [List.mem_singleton.1 he]
                  exact .here rfl
              exact hone.append k4 fun u hu => hu
            · intro u hu
              have : u = t := (show t = u from hu).symm
              subst this
              exact ht
          · cases h
          · cases h
    | basic s =>
      rw [getGRPCType] at h
      split at h
      · rename_i q hq
        simp only [Res.ok.injEq, Prod.mk.injEq] at h
        obtain ⟨rfl, rfl, rfl⟩ := h
        refine ⟨by simp [protoOf, hq], .refl, ?_⟩
        intro u hu
        cases hu
      · cases h
    | pointer t =>
      rw [getGRPCType] at h
      split at h
      · rename_i b1 p1 g1 hr
        simp only [Res.ok.injEq, Prod.mk.injEq] at h
        obtain ⟨rfl, rfl, rfl⟩ := h
        obtain ⟨r1, r2, r3⟩ := ih _ _ _ _ _ hr
        exact ⟨by simp [protoOf, r1], r2.mono fun u => Reach.of_mentions fun _ h => h, r3⟩
      · cases h
      · cases h
    | map k v =>
      rw [getGRPCType] at h
      split at h
      · cases h
      · rename_i kp hkp
        split at h
        · rename_i b1 p1 g1 hr
          simp only [Res.ok.injEq, Prod.mk.injEq] at h
          obtain ⟨rfl, rfl, rfl⟩ := h
          obtain ⟨r1, r2, r3⟩ := ih _ _ _ _ _ hr
          refine ⟨by simp [protoOf, hkp, r1], r2.mono fun u => Reach.of_mentions fun _ h => Or.inr h, ?_⟩
          obtain ⟨kb, rfl⟩ := getMapKeyType_not_user hkp
          rintro u (hu | hu)
          · cases hu
          · exact r3 u hu
        · cases h
        · cases h
    | slice t =>
      by_cases hb : t = .basic .byte
      · subst hb
        simp only [getGRPCType, if_true, Res.ok.injEq, Prod.mk.injEq] at h
        obtain ⟨rfl, rfl, rfl⟩ := h
        refine ⟨by simp [protoOf], .refl, ?_⟩
        intro u hu
        cases hu
      · cases t with
        | map k v =>
          simp only [getGRPCType, if_neg hb] at h
          cases h
        | _ =>
          simp only [getGRPCType, if_neg hb] at h
          split at h
          · rename_i b1 p1 g1 hr
            simp only [Res.ok.injEq, Prod.mk.injEq] at h
            obtain ⟨rfl, rfl, rfl⟩ := h
            obtain ⟨r1, r2, r3⟩ := ih _ _ _ _ _ hr
            refine ⟨?_, r2.mono fun u => Reach.of_mentions fun _ h => h, r3⟩
            simp only [protoOf, if_neg hb] at r1 ⊢
            simp [r1]
          · cases h
          · cases h
    | other => cases h

end Verif.Grpc
