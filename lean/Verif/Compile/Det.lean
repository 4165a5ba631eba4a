import Verif.Compile.Den
/-
A name stands for at most one node in a namespace.
-/
namespace Verif.Compile
open Verif.Wiring (Name Ptr)
variable {env : Env} {Legal : Space → Name → Prop}

theorem Den.legal {h : Nat} {sp : Space} {n : Name} {t : Tree} (d : Den env Legal h sp n t) : Legal sp n := by
  cases d <;> assumption

theorem Den.look {h : Nat} {sp : Space} {n : Name} {t : Tree} (d : Den env Legal h sp n t) : env.look n ≠ none := by
  cases d <;> simp_all

theorem Den.height {h : Nat} {sp : Space} {n : Name} {t : Tree} (d : Den env Legal h sp n t) : 1 ≤ h := by
  cases d <;> omega

/-- Determinism up to a height. -/
def DetBelow (env : Env) (Legal : Space → Name → Prop) (H : Nat) : Prop :=
  ∀ h sp n t h' t', h ≤ H → Den env Legal h sp n t → Den env Legal h' sp n t' → h = h' ∧ t = t'

theorem args_det {H : Nat} (ih : DetBelow env Legal H) {sp : Space} : ∀ (as : List (Bool × Name)) (h h' : Nat) (ts ts' : List Tree),
    h ≤ H → Args env Legal h sp as ts → Args env Legal h' sp as ts' → h = h' ∧ ts = ts' := by
  intro as
  induction as with
  | nil =>
    intro h h' ts ts' _ d d'
    cases d
    cases d'
    exact ⟨rfl, rfl⟩
  | cons a as ih' =>
    intro h h' ts ts' hle d d'
    cases d with
    | value hl d =>
      cases d' with
      | value _ d' =>
        obtain ⟨h1, h2⟩ := ih' _ _ _ _ hle d d'
        exact ⟨h1, by rw [h2]⟩
      | node hl' _ _ _ => exact absurd hl (hl' rfl)
    | node hl d _ ds =>
      cases d' with
      | value hl' _ => exact absurd hl' (hl rfl)
      | node _ d' _ ds' =>
        obtain ⟨h1, h2⟩ := ih _ _ _ _ _ _ (by omega) d d'
        obtain ⟨h3, h4⟩ := ih' _ _ _ _ (by omega) ds ds'
        subst h1 h2 h3 h4
        exact ⟨rfl, rfl⟩

theorem built_det {H : Nat} (ih : DetBelow env Legal H) {sp : Space} {n : Name} {k : Kind} {h h' : Nat} {t t' : Tree} (hle : h ≤ H)
    (d : Built env Legal h sp n k t) (d' : Built env Legal h' sp n k t') : h = h' ∧ t = t' := by
  cases d with
  | handler _ d =>
    cases d' with
    | handler _ d' =>
      obtain ⟨h1, h2⟩ := args_det ih _ _ _ _ _ hle d d'
      exact ⟨h1, by rw [h2]⟩
  | client d _ =>
    cases d' with
    | client d' _ =>
      obtain ⟨h1, h2⟩ := ih _ _ _ _ _ _ hle d d'
      exact ⟨h1, by rw [h2]⟩
  | wrap d _ =>
    cases d' with
    | wrap d' _ =>
      obtain ⟨h1, h2⟩ := ih _ _ _ _ _ _ hle d d'
      exact ⟨h1, by rw [h2]⟩
  | visibility => cases d'; exact ⟨rfl, rfl⟩
  | check dm d _ =>
    cases d' with
    | check dm' d' _ =>
      obtain ⟨h1, _⟩ := ih _ _ _ _ _ _ (by omega) dm dm'
      obtain ⟨h2, h3⟩ := ih _ _ _ _ _ _ (by omega) d d'
      exact ⟨by omega, h3⟩
  | ptr hp d _ =>
    cases d' with
    | ptr hp' d' _ =>
      rw [hp] at hp'
      cases hp'
      exact ih _ _ _ _ _ _ hle d d'
  | addr => cases d'; exact ⟨rfl, rfl⟩
  | bind => cases d'; exact ⟨rfl, rfl⟩
  | dial => cases d'; exact ⟨rfl, rfl⟩
  | grpcClient d e =>
    cases d' with
    | grpcClient d' e' =>
      obtain ⟨h1, h2⟩ := ih _ _ _ _ _ _ (by omega) d d'
      cases h2
      obtain ⟨h3, h4⟩ := ih _ _ _ _ _ _ (by omega) e e'
      exact ⟨by omega, rfl⟩
  | grpcServer d _ e f =>
    cases d' with
    | grpcServer d' _ e' f' =>
      obtain ⟨h1, h2⟩ := ih _ _ _ _ _ _ (by omega) d d'
      obtain ⟨h3, h4⟩ := ih _ _ _ _ _ _ (by omega) e e'
      cases h4
      obtain ⟨h5, h6⟩ := ih _ _ _ _ _ _ (by omega) f f'
      exact ⟨by omega, by rw [h2]⟩
  | enter _ _ d _ e =>
    cases d' with
    | enter _ _ d' _ e' =>
      obtain ⟨h1, h2⟩ := ih _ _ _ _ _ _ (by omega) d d'
      obtain ⟨h3, h4⟩ := ih _ _ _ _ _ _ (by omega) e e'
      exact ⟨by omega, h4⟩
  | space => cases d'; exact ⟨rfl, rfl⟩
  | container d e =>
    cases d' with
    | container d' e' =>
      obtain ⟨h1, h2⟩ := ih _ _ _ _ _ _ (by omega) d d'
      cases h2
      obtain ⟨h3, h4⟩ := ih _ _ _ _ _ _ (by omega) e e'
      exact ⟨by omega, rfl⟩

theorem detBelow (env : Env) (Legal : Space → Name → Prop) : ∀ H, DetBelow env Legal H := by
  intro H
  induction H with
  | zero =>
    intro h sp n t h' t' hle d
    exact absurd d.height (by omega)
  | succ H ih =>
    intro h sp n t h' t' hle d d'
    cases d with
    | alias _ hl hn d =>
      cases d' with
      | alias _ hl' _ d' =>
        rw [hl] at hl'
        cases hl'
        obtain ⟨h1, h2⟩ := ih _ _ _ _ _ _ (by omega) d d'
        exact ⟨by omega, h2⟩
      | climb _ hl' _ _ =>
        rw [hl] at hl'
        cases hl'
        exact absurd rfl hn
      | built _ hl' _ _ =>
        rw [hl] at hl'
        cases hl'
        exact absurd rfl hn
    | climb _ hl ha d =>
      cases d' with
      | alias _ hl' hn' _ =>
        rw [hl] at hl'
        cases hl'
        exact absurd rfl hn'
      | climb _ hl' _ d' =>
        obtain ⟨h1, h2⟩ := ih _ _ _ _ _ _ (by omega) d d'
        exact ⟨by omega, h2⟩
      | built _ hl' ha' _ =>
        rw [hl] at hl'
        cases hl'
        rw [ha] at ha'
        cases ha'
    | built _ hl ha d =>
      cases d' with
      | alias _ hl' hn' _ =>
        rw [hl] at hl'
        cases hl'
        exact absurd rfl hn'
      | climb _ hl' ha' _ =>
        rw [hl] at hl'
        cases hl'
        rw [ha] at ha'
        cases ha'
      | built _ hl' _ d' =>
        rw [hl] at hl'
        cases hl'
        obtain ⟨h1, h2⟩ := built_det ih (by omega) d d'
        exact ⟨by omega, h2⟩

/-- A name stands for one node in a namespace. -/
theorem Den.det {h h' : Nat} {sp : Space} {n : Name} {t t' : Tree} (d : Den env Legal h sp n t) (d' : Den env Legal h' sp n t') :
    h = h' ∧ t = t' := detBelow env Legal h _ _ _ _ _ _ (Nat.le_refl _) d d'

/-- The definition of a backend's container gives a container. -/
theorem Den.container {h : Nat} {sp : Space} {n : Name} {t : Tree} (d : Den env Legal h sp n t) : ∀ {ty : Ty} {a : Name},
    env.look n = some (n, ty, some (.container a)) → t.isCtr = true := by
  induction h generalizing sp with
  | zero => exact absurd d.height (by omega)
  | succ h ih =>
    intro ty a hl
    cases d with
    | alias _ hl' hne _ =>
      rw [hl] at hl'
      cases hl'
      exact absurd rfl hne
    | climb _ _ _ d => exact ih d hl
    | built _ hl' _ d =>
      rw [hl] at hl'
      cases hl'
      cases d
      rfl

end Verif.Compile
