import Verif.Proof.Transport
import Verif.Proof.HeapDemo
/-!
# Concrete runs of the transports, used to show that the hypotheses of the theorems are met
-/
namespace Verif.Transport
open Verif.Types Verif.Spec
open Verif.Heap (Val Entry EP Env Sig Reach Ev Out Op demoEnv)

variable {P : Type} [DecidableEq P]

/-- Running a list of steps. -/
def exec (G : Env P) : List (Act P) → List (Act P × Ret P) → St P → Option (List (Act P × Ret P) × St P)
  | [], run, st => some (run, st)
  | a :: acts, run, st => match step G st a with
    | none => none
    | some (st', r) => exec G acts (run ++ [(a, r)]) st'

theorem exec_run' {G : Env P} : ∀ (acts : List (Act P)) {run run' : List (Act P × Ret P)} {st st' : St P}, Run G run st →
    exec G acts run st = some (run', st') → Run G run' st' := by
  intro acts
  induction acts with
  | nil => intro run run' st st' h he; cases he; exact h
  | cons a acts ih =>
    intro run run' st st' h he
    unfold exec at he
    split at he
    · cases he
    · rename_i st1 r hs
      exact ih (.snoc h hs) he

/-- What a list of steps gives, from the beginning. -/
def after (G : Env P) (acts : List (Act P)) : Option (List (Act P × Ret P) × St P) := exec G acts [] (init P)

/-- A run whose projection `f` is known. -/
theorem after_run {G : Env P} {α : Type} {acts : List (Act P)} {f : List (Act P × Ret P) × St P → α} {a : α}
    (h : (after G acts).map f = some a) : ∃ run st, Run G run st ∧ f (run, st) = a := by
  unfold after at h
  cases he : exec G acts [] (init P) with
  | none => rw [he] at h; cases h
  | some p =>
    rw [he] at h
    simp only [Option.map_some, Option.some.injEq] at h
    exact ⟨p.1, p.2, exec_run' acts .init he, h⟩

theorem exec_acts {G : Env P} : ∀ (acts : List (Act P)) {run run' : List (Act P × Ret P)} {st st' : St P},
    exec G acts run st = some (run', st') → run'.map (·.1) = run.map (·.1) ++ acts := by
  intro acts
  induction acts with
  | nil => intro run run' st st' he; cases he; simp
  | cons a acts ih =>
    intro run run' st st' he
    unfold exec at he
    split at he
    · cases he
    · rw [ih he]; simp

/-- A run whose returns are known. -/
theorem after_rets {G : Env P} {acts : List (Act P)} {rs : List (Ret P)} {α : Type} {f : St P → α} {a : α}
    (h : (after G acts).map (fun p => (p.1.map (·.2), f p.2)) = some (rs, a)) :
    ∃ st, Run G (acts.zip rs) st ∧ f st = a := by
  unfold after at h
  cases he : exec G acts [] (init P) with
  | none => rw [he] at h; cases h
  | some p =>
    rw [he] at h
    simp only [Option.map_some, Option.some.injEq, Prod.mk.injEq] at h
    have ha := exec_acts acts he
    have hz : p.1 = (p.1.map (·.1)).zip (p.1.map (·.2)) := by rw [List.zip_map']; simp
    rw [ha, h.1] at hz
    simp only [List.map_nil, List.nil_append] at hz
    refine ⟨p.2, ?_, h.2⟩
    rw [← hz]
    exact exec_run' acts .init he

end Verif.Transport
