import Verif.Compile.Den
/-
Runs of build functions, without fuel.
-/
namespace Verif.Compile
open Verif.Wiring (Name Ptr)

theorem exec_succ (env : Env) : ∀ (f : Nat) (s : St) (t : Task) (x : St × Res), exec env f s t = some x → exec env (f + 1) s t = some x := by
  intro f
  induction f with
  | zero => intro s t x h; simp [exec] at h
  | succ f ih =>
    intro s t x h
    cases t with
    | get sp edge name =>
      rw [exec.eq_def] at h ⊢
      simp only at h ⊢
      revert h
      cases s.seen sp name with
      | some o => cases o <;> exact id
      | none =>
        simp only
        rcases env.look name with _ | ⟨dn, ty, k⟩
        · exact id
        cases k with
        | none => exact id
        | some k =>
          simp only
          split
          · cases hb : exec env f s (.get sp edge dn) with
            | none => intro h; simp at h
            | some y => rw [ih _ _ _ hb]; exact id
          split
          · cases hb : exec env f s (.build sp name k) with
            | none => intro h; simp at h
            | some y => rw [ih _ _ _ hb]; exact id
          · cases hb : exec env f s (.get sp.tail edge name) with
            | none => intro h; simp at h
            | some y => rw [ih _ _ _ hb]; exact id
    | args sp svc todo done =>
      cases todo with
      | nil => simpa [exec] using h
      | cons a todo =>
        obtain ⟨str, a⟩ := a
        rw [exec.eq_def] at h ⊢
        simp only at h ⊢
        revert h
        split
        · exact ih _ _ _
        · cases hb : exec env f s (.get sp true a) with
          | none => intro h; simp at h
          | some y =>
            rw [ih _ _ _ hb]
            obtain ⟨s', r⟩ := y
            cases r with
            | ok t => exact ih _ _ _
            | err => exact id
            | panic => exact id
    | build sp name k =>
      rw [exec.eq_def] at h ⊢
      simp only at h ⊢
      revert h
      cases k with
      | handler svc ctor args =>
        simp only
        split
        · exact id
        · exact ih _ _ _
      | client next =>
        simp only
        cases hb : exec env f s (.get sp true next) with
        | none => intro h; simp at h
        | some y => rw [ih _ _ _ hb]; exact id
      | wrap next =>
        simp only
        cases hb : exec env f s (.get sp true next) with
        | none => intro h; simp at h
        | some y => rw [ih _ _ _ hb]; exact id
      | visibility => exact id
      | check md target =>
        simp only
        cases hb : exec env f s (.get sp true md) with
        | none => intro h; simp at h
        | some y =>
          rw [ih _ _ _ hb]
          obtain ⟨s', r⟩ := y
          cases r with
          | ok t =>
            cases t with
            | visibility v =>
              simp only
              split
              · exact id
              · cases hb : exec env f s' (.get sp true target) with
                | none => intro h; simp at h
                | some y => rw [ih _ _ _ hb]; exact id
            | _ => exact id
          | err => exact id
          | panic => exact id
      | ptr =>
        simp only
        cases env.ptr name with
        | none => exact id
        | some p => exact ih _ _ _
      | addr => exact id
      | bind => exact id
      | dial => exact id
      | grpcClient next =>
        simp only
        cases hb : exec env f s (.get sp true next) with
        | none => intro h; simp at h
        | some y =>
          rw [ih _ _ _ hb]
          obtain ⟨s', r⟩ := y
          cases r with
          | ok t =>
            cases t with
            | addr a =>
              simp only
              cases hb : exec env f s' (.get sp true (dialName a)) with
              | none => intro h; simp at h
              | some y => rw [ih _ _ _ hb]; exact id
            | _ => exact id
          | err => exact id
          | panic => exact id
      | grpcServer next addr =>
        simp only
        cases hb : exec env f s (.get sp true next) with
        | none => intro h; simp at h
        | some y =>
          rw [ih _ _ _ hb]
          obtain ⟨s', r⟩ := y
          cases r with
          | ok t =>
            simp only
            split
            · cases hb : exec env f s' (.get sp true addr) with
              | none => intro h; simp at h
              | some y =>
                rw [ih _ _ _ hb]
                obtain ⟨s'', r⟩ := y
                cases r with
                | ok u =>
                  cases u with
                  | addr a =>
                    simp only
                    cases hb : exec env f s'' (.get sp true (bindName a)) with
                    | none => intro h; simp at h
                    | some y => rw [ih _ _ _ hb]; exact id
                  | _ => exact id
                | err => exact id
                | panic => exact id
            · exact id
          | err => exact id
          | panic => exact id
      | enter y next =>
        simp only
        cases hb : exec env f s (.get sp true y) with
        | none => intro h; simp at h
        | some y =>
          rw [ih _ _ _ hb]
          obtain ⟨s', r⟩ := y
          cases r with
          | ok t =>
            simp only
            split
            · exact ih _ _ _
            · exact id
          | err => exact id
          | panic => exact id
      | space l => exact id
      | container addr =>
        simp only
        cases hb : exec env f s (.get sp true addr) with
        | none => intro h; simp at h
        | some y =>
          rw [ih _ _ _ hb]
          obtain ⟨s', r⟩ := y
          cases r with
          | ok t =>
            cases t with
            | addr a =>
              simp only
              cases hb : exec env f s' (.get sp true (bindName a)) with
              | none => intro h; simp at h
              | some y => rw [ih _ _ _ hb]; exact id
            | _ => exact id
          | err => exact id
          | panic => exact id

theorem exec_mono (env : Env) {f f' : Nat} {s : St} {t : Task} {x : St × Res} (hle : f ≤ f') (h : exec env f s t = some x) :
    exec env f' s t = some x := by
  induction hle with
  | refl => exact h
  | step _ ih => exact exec_succ env _ _ _ _ ih

/-- The task, started in `s`, ends in `s'` with the result. -/
def Runs (env : Env) (s : St) (t : Task) (s' : St) (r : Res) : Prop := ∃ f, exec env f s t = some (s', r)

theorem Runs.det {env : Env} {s s' s'' : St} {t : Task} {r r' : Res} (h : Runs env s t s' r) (h' : Runs env s t s'' r') :
    s' = s'' ∧ r = r' := by
  obtain ⟨f, h⟩ := h
  obtain ⟨f', h'⟩ := h'
  have h1 := exec_mono env (Nat.le_max_left f f') h
  have h2 := exec_mono env (Nat.le_max_right f f') h'
  rw [h1] at h2
  simpa using h2

section
variable {env : Env} {s s' s'' s3 : St} {sp : Space} {n next a : Name} {t : Tree} {e : Bool} {ty : Ty} {k : Kind} {r : Res}

theorem runs_seen (h : s.seen sp n = some (some t)) : Runs env s (.get sp e n) s (.ok t) := ⟨1, by simp [exec, h]⟩

theorem runs_alias {dn : Name} (h : s.seen sp n = none) (hl : env.look n = some (dn, ty, some k)) (hn : dn ≠ n)
    (hr : Runs env s (.get sp e dn) s' (.ok t)) : Runs env s (.get sp e n) (s'.setSeen sp n (some t)) (.ok t) := by
  obtain ⟨f, hr⟩ := hr
  exact ⟨f + 1, by simp [exec, h, hl, hn, hr]⟩

theorem runs_built (h : s.seen sp n = none) (hl : env.look n = some (n, ty, some k)) (ha : s.accepts sp ty = true)
    (hr : Runs env s (.build sp n k) s' (.ok t)) : Runs env s (.get sp e n) (s'.afterBuild sp n k.proxy t) (.ok t) := by
  obtain ⟨f, hr⟩ := hr
  exact ⟨f + 1, by simp [exec, h, hl, ha, hr]⟩

theorem runs_climb (h : s.seen sp n = none) (hl : env.look n = some (n, ty, some k)) (ha : s.accepts sp ty = false)
    (hr : Runs env s (.get sp.tail e n) s' (.ok t)) : Runs env s (.get sp e n) (s'.afterParent sp n e k.proxy t) (.ok t) := by
  obtain ⟨f, hr⟩ := hr
  exact ⟨f + 1, by simp [exec, h, hl, ha, hr]⟩

theorem runs_args_nil {svc : Name} {done : List Tree} : Runs env s (.args sp svc [] done) s (.ok (.handler svc done)) :=
  ⟨1, by simp [exec]⟩

theorem runs_args_value {svc : Name} {rest : List (Bool × Name)} {done : List Tree} (hl : env.look a = none)
    (hr : Runs env s (.args sp svc rest (done ++ [.value a])) s' r) : Runs env s (.args sp svc ((true, a) :: rest) done) s' r := by
  obtain ⟨f, hr⟩ := hr
  exact ⟨f + 1, by simp [exec, hl, hr]⟩

theorem runs_args_node {str : Bool} {svc : Name} {rest : List (Bool × Name)} {done : List Tree} (hl : str = true → env.look a ≠ none)
    (hg : Runs env s (.get sp true a) s' (.ok t)) (hr : Runs env s' (.args sp svc rest (done ++ [t])) s'' r) :
    Runs env s (.args sp svc ((str, a) :: rest) done) s'' r := by
  obtain ⟨f, hg⟩ := hg
  obtain ⟨f', hr⟩ := hr
  have hg := exec_mono env (Nat.le_max_left f f') hg
  have hr := exec_mono env (Nat.le_max_right f f') hr
  refine ⟨max f f' + 1, ?_⟩
  have hc : (str && (env.look a).isNone) = false := by
    cases str with
    | false => rfl
    | true =>
      cases hla : env.look a with
      | none => exact absurd hla (hl rfl)
      | some x => rfl
  rw [exec.eq_def]
  simp [hc, hg, hr]

theorem runs_handler {svc : Name} {ctor : List Bool} {args : List Name} (hlen : ctor.length = args.length)
    (hr : Runs env s (.args sp svc (ctor.zip args) []) s' r) : Runs env s (.build sp n (.handler svc ctor args)) s' r := by
  obtain ⟨f, hr⟩ := hr
  exact ⟨f + 1, by simp [exec, hlen, hr]⟩

theorem runs_client (hr : Runs env s (.get sp true next) s' (.ok t)) : Runs env s (.build sp n (.client next)) s' (.ok (.wrap n t)) := by
  obtain ⟨f, hr⟩ := hr
  exact ⟨f + 1, by simp [exec, hr]⟩

theorem runs_wrap (hr : Runs env s (.get sp true next) s' (.ok t)) (ht : t.isService = true) :
    Runs env s (.build sp n (.wrap next)) s' (.ok (.wrap n t)) := by
  obtain ⟨f, hr⟩ := hr
  exact ⟨f + 1, by simp [exec, hr, ht]⟩

theorem runs_visibility : Runs env s (.build sp n .visibility) s (.ok (.visibility n)) := ⟨1, by simp [exec]⟩
theorem runs_addr : Runs env s (.build sp n .addr) s (.ok (.addr n)) := ⟨1, by simp [exec]⟩
theorem runs_bind : Runs env s (.build sp n .bind) s (.ok (.bind n)) := ⟨1, by simp [exec]⟩
theorem runs_dial : Runs env s (.build sp n .dial) s (.ok (.dial n)) := ⟨1, by simp [exec]⟩

theorem runs_check {md target v : Name} (hm : Runs env s (.get sp true md) s' (.ok (.visibility v))) (ho : s'.owner v = none)
    (ht : Runs env s' (.get sp true target) s'' (.ok t)) :
    Runs env s (.build sp n (.check md target)) { s'' with owner := fun x => if x = v then some t else s''.owner x } (.ok t) := by
  obtain ⟨f, hm⟩ := hm
  obtain ⟨f', ht⟩ := ht
  have hm := exec_mono env (Nat.le_max_left f f') hm
  have ht := exec_mono env (Nat.le_max_right f f') ht
  exact ⟨max f f' + 1, by simp [exec, hm, ht, ho]⟩

theorem runs_ptr {p : Ptr} (hp : env.ptr n = some p)
    (hr : Runs env { s with queue := s.queue ++ [.dst sp n] } (.get sp true p.srcHead) s' (.ok t)) :
    Runs env s (.build sp n .ptr) s' (.ok t) := by
  obtain ⟨f, hr⟩ := hr
  exact ⟨f + 1, by simp [exec, hp, hr]⟩

theorem runs_grpcClient {d : Name} (hn : Runs env s (.get sp true next) s' (.ok (.addr a)))
    (hd : Runs env s' (.get sp true (dialName a)) s'' (.ok (.dial d))) :
    Runs env s (.build sp n (.grpcClient next)) s'' (.ok (.grpcClient n a)) := by
  obtain ⟨f, hn⟩ := hn
  obtain ⟨f', hd⟩ := hd
  have hn := exec_mono env (Nat.le_max_left f f') hn
  have hd := exec_mono env (Nat.le_max_right f f') hd
  exact ⟨max f f' + 1, by simp [exec, hn, hd]⟩

theorem runs_grpcServer {addr b : Name} (hn : Runs env s (.get sp true next) s' (.ok t)) (ht : t.isService = true)
    (ha : Runs env s' (.get sp true addr) s'' (.ok (.addr a))) (hb : Runs env s'' (.get sp true (bindName a)) s3 (.ok (.bind b))) :
    Runs env s (.build sp n (.grpcServer next addr))
      { s3 with dest := fun x => if x = a then some (.grpcServer n t a) else s3.dest x } (.ok (.grpcServer n t a)) := by
  obtain ⟨f, hn⟩ := hn
  obtain ⟨f', ha⟩ := ha
  obtain ⟨f'', hb⟩ := hb
  have hn := exec_mono env (show f ≤ max f (max f' f'') by omega) hn
  have ha := exec_mono env (show f' ≤ max f (max f' f'') by omega) ha
  have hb := exec_mono env (show f'' ≤ max f (max f' f'') by omega) hb
  exact ⟨max f (max f' f'') + 1, by simp [exec, hn, ht, ha, hb]⟩

theorem runs_container {addr b : Name} (ha : Runs env s (.get sp true addr) s' (.ok (.addr a)))
    (hb : Runs env s' (.get sp true (bindName a)) s'' (.ok (.bind b))) :
    Runs env s (.build sp n (.container addr))
      { s'' with dest := fun x => if x = a then some (.container n a) else s''.dest x } (.ok (.container n a)) := by
  obtain ⟨f, ha⟩ := ha
  obtain ⟨f', hb⟩ := hb
  have ha := exec_mono env (Nat.le_max_left f f') ha
  have hb := exec_mono env (Nat.le_max_right f f') hb
  exact ⟨max f f' + 1, by simp [exec, ha, hb]⟩

theorem runs_enter {x : Name} (hx : Runs env s (.get sp true x) s' (.ok (.space x))) (hlv : (s'.level (x :: sp)).isSome = true)
    (hr : Runs env s' (.get (x :: sp) false next) s'' (.ok t)) : Runs env s (.build sp n (.enter x next)) s'' (.ok t) := by
  obtain ⟨f, hx⟩ := hx
  obtain ⟨f', hr⟩ := hr
  have hx := exec_mono env (Nat.le_max_left f f') hx
  have hr := exec_mono env (Nat.le_max_right f f') hr
  exact ⟨max f f' + 1, by simp [exec, hx, hr, Tree.name, hlv]⟩

theorem runs_space {l : Nat} (hlv : s.level (n :: sp) = none) : Runs env s (.build sp n (.space l))
    { s with level := fun q => if q = n :: sp then some l else s.level q, queue := .children (n :: sp) :: s.queue } (.ok (.space n)) :=
  ⟨1, by simp [exec, hlv]⟩
end

end Verif.Compile
