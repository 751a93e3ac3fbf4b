import Verif.Proof.Handles
import Verif.Prop.C55_Cases
/-!
# C72: sockets are neither leaked nor closed too early
-/
namespace Verif.Prop
open Verif.Types Verif.Spec Verif.Transport
open Verif.Heap (Val Entry EP Env demoEnv)

variable {P : Type} [DecidableEq P] {G : Env P}

/-- **C72**, the count: the handles of a socket in the hands of the clients, those inside calls, and those that are gone make up those that forks and clones have given.  Gone
are those that were dropped and those given to a call that closed or cancelled the session, failed or panicked; a call that sends or receives gives its handle back. -/
theorem C72_count {run : List (Act P × Ret P)} {st : St P} (h : Run G run st) (s : Sock) :
    ∃ busy : List Nat, busy.Nodup ∧ (∀ t, t ∈ busy ↔ (st.thr t).sock = some s) ∧ handles st s + busy.length + (ledger run).gone s = (ledger run).made s :=
  (counted h).count s

/-- **C72**, a socket is open exactly as long as not all handles are gone. -/
theorem C72_open {run : List (Act P × Ret P)} {st : St P} (h : Run G run st) (s : Sock) : Opened st s ↔ (ledger run).gone s < (ledger run).made s := by
  obtain ⟨busy, -, h2, h3⟩ := C72_count h s
  constructor
  · rintro (h4 | ⟨t, h4⟩)
    · omega
    · have := List.length_pos_of_mem ((h2 t).2 h4)
      omega
  · intro h4
    cases busy with
    | nil => exact .inl (by simp only [List.length_nil] at h3; omega)
    | cons t ts => exact .inr ⟨t, (h2 t).1 (.head _)⟩

theorem made_le (L : Ledger) (a : Act P) (r : Ret P) (s : Sock) : L.made s ≤ (L.note (a, r)).made s := by
  have call : ∀ t x, (L.call t x r).made s = L.made s := by
    intro t x; unfold Ledger.call; split
    · rfl
    · split <;> rfl
  have goes : ∀ t, (L.goes t r).made s = L.made s := by
    intro t; unfold Ledger.goes; split
    · split <;> rfl
    · rfl
  have make : ∀ x n, L.made s ≤ (L.make x n).made s := by
    intro x n; simp only [Ledger.make]; split <;> omega
  cases a <;> cases r <;> first
    | exact Nat.le_refl _
    | exact make _ _
    | exact Nat.le_of_eq (call _ _).symm
    | exact Nat.le_of_eq (goes _).symm

/-- **C72**, a socket is not closed behind somebody's back: it stays open in every step, of whatever thread or of the system, in which no handle of it goes. -/
theorem C72_stays {run : List (Act P × Ret P)} {st st' : St P} {a : Act P} {r : Ret P} (h : Run G run st) (hs : step G st a = some (st', r)) (s : Sock)
    (hg : (ledger (run ++ [(a, r)])).gone s = (ledger run).gone s) : Opened st s → Opened st' s := by
  rw [C72_open h, C72_open (.snoc h hs), hg]
  have hm : (ledger run).made s ≤ (ledger (run ++ [(a, r)])).made s := by
    unfold ledger
    rw [List.foldl_append]
    exact made_le _ a r s
  omega

/-- A send is cut short by an error, the other handle goes out of scope. -/
def cutRun : List (Act Nat) := [.forkTcp twice .done, .sendTcp 1 snd0 val7 bsA 0 true, .write 1 100, .writeErr 1, .dropTcp 0]

/-- The handles of the run and of its beginnings, as counted and as they are. -/
theorem cut_case : (List.range' 2 4).map (fun k => (after demoEnv (cutRun.take k)).map fun p =>
      ((ledger p.1).made (.tcp 0), (ledger p.1).gone (.tcp 0), handles p.2 (.tcp 0), (p.2.thr 1).sock)) =
    [some (2, 0, 1, some (.tcp 0)), some (2, 0, 1, some (.tcp 0)), some (2, 1, 1, none), some (2, 2, 0, none)] := by decide +kernel

/-- A run as the theorems ask for, in which a socket is opened and closed again. -/
example : ∃ run st, Run demoEnv run st ∧ (ledger run).made (.tcp 0) = 2 ∧ ¬ Opened st (.tcp 0) := by
  have hc : (after demoEnv cutRun).map (fun p => ((ledger p.1).made (.tcp 0), (ledger p.1).gone (.tcp 0))) = some (2, 2) := by decide +kernel
  obtain ⟨run, st, h, hp⟩ := after_run hc
  simp only [Prod.mk.injEq] at hp
  refine ⟨run, st, h, hp.1, ?_⟩
  rw [C72_open h, hp.1, hp.2]
  decide

/-- And one in which it is open, inside a call. -/
example : ∃ run st, Run demoEnv run st ∧ Opened st (.tcp 0) ∧ (st.thr 1).sock = some (.tcp 0) := by
  have hc : (after demoEnv (cutRun.take 3)).map (fun p => (p.2.thr 1).sock) = some (some (.tcp 0)) := by decide +kernel
  obtain ⟨run, st, h, hp⟩ := after_run hc
  exact ⟨run, st, h, .inr ⟨1, hp⟩, hp⟩

end Verif.Prop
