import Verif.Proof.BottomUpLive
import Verif.Proof.BottomUpOrphan
import Verif.Prop.C51

/-!
# C65: programs whose machines pass the check of the bottom-up approach

`Mesh.Run` are the runs of the program, `CRun` those of the machines that `checker_concat!` writes for `KMC`.
-/
namespace Verif.Prop
open Verif.Check Verif.Spec

/-- The context of the proofs. -/
theorem C65_ctx {n : Nat} {sites : List Site} {main : Nat → Part} {code : Str → Nat} {num : Nat → Str → Mesh.Name}
    {Y : Mesh.Sys} {root : Mesh.Name} {ts : Nat → List Trans} (hprog : Program n sites main code num Y root)
    (hcoh : Coherent n sites main) (hts : ∀ i < n, States (partsOf sites i) (main i) (ts i)) :
    ∃ part, BottomUp.Ctx n sites main code num Y root ts part := by
  refine ⟨fun i => if h : i < n then (hts i h).choose else fun _ => ⟨[], none⟩, hprog, hcoh, ?_, ?_⟩
  · intro i hi
    simp only [dif_pos hi]
    exact (hts i hi).choose_spec.1
  · intro i hi w v hv
    simp only [dif_pos hi]
    exact (hts i hi).choose_spec.2 w v hv

/-- The communications of every run of the program are those of a run of the machines, in the same order. -/
theorem C65_runs (n : Nat) (sites : List Site) (main : Nat → Part) (code : Str → Nat) (num : Nat → Str → Mesh.Name)
    (Y : Mesh.Sys) (root : Mesh.Name) (hprog : Program n sites main code num Y root) (hcoh : Coherent n sites main)
    (ts : Nat → List Trans) (hts : ∀ i < n, States (partsOf sites i) (main i) (ts i)) (ls : List Mesh.Label) (s : Mesh.S)
    (hrun : Mesh.Run Y (.init Y root) ls s) :
    ∃ w cf, CRun n ts .init w cf ∧
      commsOf ls = w.map fun a => (a.1 + 1, a.2.1, a.2.2.1 + 1, code a.2.2.2) := by
  obtain ⟨part, hX⟩ := C65_ctx hprog hcoh hts
  obtain ⟨_, cf, w, _, _, _, h1, h2⟩ := BottomUp.sim_run hX hrun rfl
  exact ⟨w, cf, h1, h2⟩

/-- A role receives values of the type it expects: never a value of another type, or a branch. -/
theorem C65_typed (n : Nat) (sites : List Site) (main : Nat → Part) (code : Str → Nat) (num : Nat → Str → Mesh.Name)
    (Y : Mesh.Sys) (root : Mesh.Name) (hprog : Program n sites main code num Y root) (hcoh : Coherent n sites main)
    (ts : Nat → List Trans) (hts : ∀ i < n, States (partsOf sites i) (main i) (ts i)) (ls : List Mesh.Label) (s : Mesh.S)
    (hrun : Mesh.Run Y (.init Y root) ls s) (r : Nat) (hr : 1 ≤ r ∧ r ≤ n) (M : Mesh.Mesh) (hM : s.pos r = .mesh M) (q m : Nat)
    (k : Mesh.Stack) (T : Mesh.Sess) (hst : M.stack = .role q k) (hse : M.sess q = .recv m T) (msg : Mesh.Msg)
    (l : List Mesh.Msg) (hq : s.queue (s.gen r, q, r) = msg :: l) : msg = .data m := by
  obtain ⟨part, hX⟩ := C65_ctx hprog hcoh hts
  obtain ⟨G, cf, w, hO, hR, hMc, _, _⟩ := BottomUp.sim_run hX hrun rfl
  obtain ⟨i, rfl, hi⟩ := BottomUp.role_pred (Y := Y) hr.1 (by rw [hprog.roles]; exact hr.2) hprog.roles
  obtain ⟨ht, rfl⟩ := BottomUp.held hR hi hM
  obtain ⟨c, cs, hc, rfl, ho, rfl, hm⟩ := BottomUp.mesh_recv hst hse
  cases msg with
  | data x =>
    obtain ⟨rfl, _⟩ := BottomUp.sim_recv hX hO hR hMc hi ht hc ho hq
    rfl
  | branch N =>
    exfalso
    obtain ⟨hx, hne⟩ := BottomUp.cur_partner hO hcoh hi hc
    rw [hR.gen i hi, hR.queue _ _ hx _ hi hne] at hq
    cases hl : G.left (G.gen i) c.partner i with
    | cons d dl => rw [hl] at hq; simp at hq
    | nil =>
      rw [hl] at hq
      simp only [List.map_nil, List.nil_append] at hq
      unfold BottomUp.Ghost.label at hq
      split at hq
      · rename_i hlab
        obtain ⟨a1, ⟨d, a2, a3⟩, a4, _⟩ := hlab
        -- the chooser has done all of the block
        have hall : G.done (G.gen i) c.partner = (G.blk (G.gen i) c.partner).comms := by
          rcases a4 with a4 | ⟨a4, rest, a5, _⟩
          · exact BottomUp.done_before a4
          · rw [← a4]
            exact BottomUp.done_all (hO.tell _ hx rest a5).2.2.1
        obtain ⟨b1, b2, b3⟩ := BottomUp.sides hO hcoh hi hc
        exact BottomUp.not_full b1 b2 hl (by rw [hall])
      · cases hq

/-- What a role has received from another is what the other has sent it, up to some point.  A role that has ended has received all that
anybody has sent to it, values and branches: nothing is left in its queues. -/
theorem C65_no_orphans (n : Nat) (sites : List Site) (main : Nat → Part) (code : Str → Nat) (num : Nat → Str → Mesh.Name)
    (Y : Mesh.Sys) (root : Mesh.Name) (hprog : Program n sites main code num Y root) (hcoh : Coherent n sites main)
    (ts : Nat → List Trans) (hts : ∀ i < n, States (partsOf sites i) (main i) (ts i)) (ls : List Mesh.Label) (s : Mesh.S)
    (hrun : Mesh.Run Y (.init Y root) ls s) (p q : Nat) (hp : 1 ≤ p ∧ p ≤ n) (hq : 1 ≤ q ∧ q ≤ n) (hpq : p ≠ q) :
    receivedFrom q p (commsOf ls) <+: sentTo p q (commsOf ls) ∧
    (Mesh.Finished s q → receivedFrom q p (commsOf ls) = sentTo p q (commsOf ls) ∧ ∀ g, s.queue (g, p, q) = []) := by
  obtain ⟨part, hX⟩ := C65_ctx hprog hcoh hts
  obtain ⟨G, cf, w, hO, hR, hM, h1, h2⟩ := BottomUp.sim_run hX hrun rfl
  obtain ⟨p, rfl, ip⟩ := BottomUp.role_pred (Y := Y) hp.1 (by rw [hprog.roles]; exact hp.2) hprog.roles
  obtain ⟨q, rfl, iq⟩ := BottomUp.role_pred (Y := Y) hq.1 (by rw [hprog.roles]; exact hq.2) hprog.roles
  have hpq : p ≠ q := fun h => hpq (by rw [h])
  have hs : sentTo (p + 1) (q + 1) (commsOf ls) =
      (w.filterMap fun a => if a.1 = p ∧ a.2.1 = true ∧ a.2.2.1 = q then some a.2.2.2 else none).map code := by
    rw [h2, sentTo, List.filterMap_map, List.map_filterMap]
    congr 1
    funext a
    simp only [Function.comp, BottomUp.seen, Nat.add_right_cancel_iff]
    split <;> rfl
  have hr : receivedFrom (q + 1) (p + 1) (commsOf ls) =
      (w.filterMap fun a => if a.1 = q ∧ a.2.1 = false ∧ a.2.2.1 = p then some a.2.2.2 else none).map code := by
    rw [h2, receivedFrom, List.filterMap_map, List.map_filterMap]
    congr 1
    funext a
    simp only [Function.comp, BottomUp.seen, Nat.add_right_cancel_iff]
    split <;> rfl
  have hf := BottomUp.crun_fifo h1 p q
  rw [hs, hr, hf, List.map_append]
  refine ⟨List.prefix_append _ _, fun hfin => ?_⟩
  have hl := BottomUp.finished_left hcoh hO hR ip iq hpq hfin
  constructor
  · rw [hM.queue p ip q iq hpq, List.flatMap_eq_nil_iff.mpr (fun g _ => by rw [(hl g).1]; rfl)]
    simp
  · intro g
    rw [hR.queue g p ip q iq hpq, (hl g).1, (hl g).2]
    rfl

/-- If the machines make progress, so does the program: as long as a role has not ended, some role can take a step.

Missing: choices with several branches in one of which a role cannot do its first communication, the messages before it
waiting for each other (`Begins`); for them it does not hold, see `C65_stuck` and `C65_live_iff`.  Branches that begin with
another choice, see C50. -/
theorem C65_progress_partial (n : Nat) (sites : List Site) (main : Nat → Part) (code : Str → Nat) (num : Nat → Str → Mesh.Name)
    (Y : Mesh.Sys) (root : Mesh.Name) (hprog : Program n sites main code num Y root) (hcoh : Coherent n sites main)
    (hbegins : Begins n sites) (ts : Nat → List Trans) (hts : ∀ i < n, States (partsOf sites i) (main i) (ts i))
    (hp : Progress n ts) (ls : List Mesh.Label) (s : Mesh.S) (hrun : Mesh.Run Y (.init Y root) ls s)
    (hun : ∃ r, 1 ≤ r ∧ r ≤ n ∧ ¬ Mesh.Finished s r) : ∃ l s', Mesh.Step Y s l s' := by
  obtain ⟨part, hX⟩ := C65_ctx hprog hcoh hts
  obtain ⟨G, cf, w, hO, hR, hM, h1, _⟩ := BottomUp.sim_run hX hrun rfl
  exact BottomUp.progress hX hbegins hp hO hR hM h1 hun

/-- And every role that has not ended may yet take a step: nobody is left behind.  Missing: as for `C65_progress_partial`. -/
theorem C65_live_partial (n : Nat) (sites : List Site) (main : Nat → Part) (code : Str → Nat) (num : Nat → Str → Mesh.Name)
    (Y : Mesh.Sys) (root : Mesh.Name) (hprog : Program n sites main code num Y root) (hcoh : Coherent n sites main)
    (hbegins : Begins n sites) (ts : Nat → List Trans) (hts : ∀ i < n, States (partsOf sites i) (main i) (ts i))
    (hp : Progress n ts) : Lively Y root := by
  obtain ⟨part, hX⟩ := C65_ctx hprog hcoh hts
  exact BottomUp.live hX hbegins hp

theorem C65_gets_le {P : Nat → Part} {i k : Nat} (h : Gets P i k) : ∀ m, m ≤ k → Gets P i m := by
  induction h with
  | zero => intro m hm; obtain rfl : m = 0 := by omega
            exact .zero
  | send h hc ho ih =>
    intro m hm
    rcases Nat.lt_or_eq_of_le hm with h' | rfl
    · exact ih m (by omega)
    · exact .send h hc ho
  | recv h hc ho h' hm' ih _ =>
    intro m hm
    rcases Nat.lt_or_eq_of_le hm with h'' | rfl
    · exact ih m (by omega)
    · exact .recv h hc ho h' hm'

/-- The condition is exact, for protocols each of whose branches is chosen in some run, and branches with names of their
own: if the machines make progress, then roles can always go on if, and only if, every branch can begin. -/
theorem C65_live_iff (n : Nat) (sites : List Site) (main : Nat → Part) (code : Str → Nat) (num : Nat → Str → Mesh.Name)
    (Y : Mesh.Sys) (root : Mesh.Name) (hprog : Program n sites main code num Y root) (hcoh : Coherent n sites main)
    (hnum : ∀ c s c' s', sites[c]? = some s → sites[c']? = some s' → ∀ b ∈ s.branches, ∀ b' ∈ s'.branches,
      num c b = num c' b' → c = c' ∧ b = b')
    (hchosen : ∀ c s, sites[c]? = some s → 2 ≤ s.branches.length → ∀ b ∈ s.branches, ∃ ls s' r,
      Mesh.Run Y (.init Y root) ls s' ∧ Mesh.Label.act r (.decide (num c b)) ∈ ls)
    (ts : Nat → List Trans) (hts : ∀ i < n, States (partsOf sites i) (main i) (ts i)) (hp : Progress n ts) :
    Lively Y root ↔ Begins n sites := by
  obtain ⟨part, hX⟩ := C65_ctx hprog hcoh hts
  refine ⟨fun hl s hs h2 b hb i hi hne => ?_, fun hb => BottomUp.live hX hb hp⟩
  obtain ⟨c, hc⟩ := List.getElem?_of_mem hs
  obtain ⟨ls, s', r, hr, hd⟩ := hchosen c s hc h2 b hb
  exact C65_gets_le (BottomUp.needed hX hl hnum hr hc hb hd hi) 1 (List.length_pos_iff.mpr hne)

/-- The file the checker writes for these machines. -/
def C65_file (names : List Str) (machine : Nat → List Trans) : List Str :=
  (List.range names.length).flatMap fun i => machineFile (roleOf (names.getD i [])) (machine i) ++ [[]]

/-- With a tool that only accepts machines that make progress: if `checker_concat!` gives a bound for the types of a
protocol, whose parts fit together, then programs with these types never stop before all roles have ended.

Missing: as for `C65_progress_partial`; types that are not well named, see C51. -/
theorem C65_checked_partial (names : List Str) (hlen : 2 ≤ names.length) (hsorted : names.Pairwise (· < ·)) (sites : List Site)
    (hnamed : Named (names.map roleOf) sites)
    (hfit : ∀ me < names.length, ∀ s ∈ sites, ∀ b ∈ s.branches, (s.part b me).Fit (names.map roleOf) sites me)
    (hguard : ∀ me < names.length, ∀ s ∈ sites, ∀ b ∈ s.branches, (s.part b me).Guarded)
    (main : Nat → Part) (hmain : ∀ me < names.length, (main me).Fit (names.map roleOf) sites me)
    (hdual : Dual names.length main ∧ ∀ s ∈ sites, ∀ b ∈ s.branches, Dual names.length (s.part b))
    (hbegins : Begins names.length sites)
    (sessions : List Str) (variant : Str → Str → Str) (groups : List BranchGroup)
    (hcall : Call names sites main sessions variant groups) (kmc : List Str → Nat → Bool)
    (hkmc : ∀ machine k, kmc (C65_file names machine) k = true → Progress names.length machine)
    (nameFile : Str) : ∃ f, ∀ fuel, f ≤ fuel → ∀ graphs file k,
      checkerConcat fuel kmc nameFile sessions variant groups = some (graphs, file, some k) →
      ∀ code num Y root, Program names.length sites main code num Y root → ∀ ls s, Mesh.Run Y (.init Y root) ls s →
        (∃ r, 1 ≤ r ∧ r ≤ names.length ∧ ¬ Mesh.Finished s r) → ∃ l s', Mesh.Step Y s l s' := by
  obtain ⟨f, hf⟩ := C51_checker_partial names hlen hsorted sites hnamed hfit hguard main hmain sessions variant groups hcall kmc
    nameFile
  refine ⟨f, fun fuel hl graphs file k heq code num Y root hprog ls s hrun hun => ?_⟩
  obtain ⟨graph, machine, graphs', h1, _, h2⟩ := hf fuel hl
  rw [heq] at h1
  simp only [Option.some.injEq, Prod.mk.injEq] at h1
  obtain ⟨_, _, hk⟩ := h1
  split at hk
  · cases hk
  · have hk := ((C27_least_partial _ k).mp hk.symm).1.2.1
    have hp := hkmc machine k hk
    refine C65_progress_partial names.length sites main code num Y root hprog ?_ hbegins machine (fun i hi => (h2 i hi).states)
      hp ls s hrun hun
    exact {
      two := hlen
      dualMain := hdual.1
      dual := hdual.2
      partnerMain := fun i hi c hc => by simpa using (hmain i hi).partner c hc
      partner := fun s hs b hb i hi c hc => by simpa using (hfit i hi s hs b hb).partner c hc
      nextMain := fun i hi c hc => (hmain i hi).next c hc
      next := fun s hs b hb i hi c hc => (hfit i hi s hs b hb).next c hc
      sender := fun s hs => ⟨by simpa using hnamed.sender s hs, (hnamed.branches s hs).1⟩
      guarded := fun s hs b hb i hi => hguard i hi s hs b hb }

/-! ## Cases -/

/-- The communications that may come next, and what remains, for branches that begin with no other choice. -/
def C65_next (parts : Nat → List Part) (P : Part) : List (Comm × Part) :=
  let first : Part → List (Comm × Part) := fun P => match P.comms with
    | [] => []
    | c :: cs => [(c, ⟨cs, P.next⟩)]
  match P.comms, P.next with
  | [], some k => (parts k).flatMap first
  | _, _ => first P

theorem C65_next_iff {parts : Nat → List Part} (hg : ∀ k, ∀ B ∈ parts k, B.Guarded) {P Q : Part} {c : Comm} :
    After parts P c Q ↔ (c, Q) ∈ C65_next parts P := by
  constructor
  · intro h
    cases h with
    | comm => simp [C65_next]
    | choose hB h =>
      cases h with
      | comm =>
        simp only [C65_next, List.mem_flatMap]
        exact ⟨_, hB, by simp⟩
      | choose hB' _ =>
        have := hg _ _ hB rfl
        simp at this
  · intro h
    obtain ⟨pc, pn⟩ := P
    cases pc with
    | cons d ds =>
      simp only [C65_next, List.mem_singleton, Prod.mk.injEq] at h
      obtain ⟨rfl, rfl⟩ := h
      exact .comm
    | nil =>
      cases pn with
      | none => simp [C65_next] at h
      | some k =>
        simp only [C65_next, List.mem_flatMap] at h
        obtain ⟨B, hB, h⟩ := h
        refine .choose hB ?_
        obtain ⟨bc, bn⟩ := B
        cases bc with
        | nil => cases h
        | cons d ds =>
          simp only [List.mem_singleton, Prod.mk.injEq] at h
          obtain ⟨rfl, rfl⟩ := h
          exact .comm

/-! Roles `P`, `Q`, `R`, `S`; `P` chooses.  In the branch `L` (the first), `P` waits for `Q`, `Q` for `R`, and `R` for `P`. In
the branch `M`, `S` sends to `P`, `P` to `Q`, `Q` to `R`.  In the machines, nobody can ever take the first branch, and all goes
well. -/

namespace C65_case

def names : List Str := [['P'], ['Q'], ['R'], ['S']]

def roles : List Str := names.map roleOf

def z : Ty := .mk ['z'] []

def site : Site where
  sender := 0
  enum := fun x => if x = 0 then ['D'] else if x = 1 then ['E'] else if x = 2 then ['F'] else ['G']
  branches := [['L'], ['M']]
  part := fun b x =>
    if b = ['L'] then
      if x = 0 then ⟨[⟨false, 1, z⟩, ⟨true, 2, z⟩], none⟩
      else if x = 1 then ⟨[⟨false, 2, z⟩, ⟨true, 0, z⟩], none⟩
      else if x = 2 then ⟨[⟨false, 0, z⟩, ⟨true, 1, z⟩], none⟩
      else ⟨[], none⟩
    else
      if x = 0 then ⟨[⟨false, 3, z⟩, ⟨true, 1, z⟩], none⟩
      else if x = 1 then ⟨[⟨false, 0, z⟩, ⟨true, 2, z⟩], none⟩
      else if x = 2 then ⟨[⟨false, 1, z⟩], none⟩
      else ⟨[⟨true, 0, z⟩], none⟩

def start : Part := ⟨[], some 0⟩

def textOf (k : Nat) (i : Nat) (P : Part) : Str :=
  List.replicate k '&' ++ (C51_case.mesh (P.fields roles [site] i) (names.getD i [])).print

def group (b : Str) : BranchGroup := ⟨textOf 0 0 (site.part b 0), [(['E'], b), (['F'], b), (['G'], b)]⟩

def num (_ : Nat) (b : Str) : Mesh.Name := if b = ['L'] then 1 else 2

/-- The program. -/
def prog : Mesh.Sys where
  n := 4
  types := fun N r => if N = 0 then start.mesh List.length num [site] (r - 1)
    else if N = 1 then (site.part ['L'] (r - 1)).mesh List.length num [site] (r - 1)
    else (site.part ['M'] (r - 1)).mesh List.length num [site] (r - 1)

theorem four {x : Nat} (h : x < 4) : x = 0 ∨ x = 1 ∨ x = 2 ∨ x = 3 := by omega

theorem only {c : Nat} {s : Site} (h : [site][c]? = some s) : c = 0 ∧ s = site := by
  cases c with
  | zero => simpa using h.symm
  | succ c => simp at h

theorem two {b : Str} (h : b ∈ site.branches) : b = ['L'] ∨ b = ['M'] := by simpa [site] using h

theorem program : Program 4 [site] (fun _ => start) List.length num prog 0 where
  roles := rfl
  start := by
    intro i _
    simp [prog]
  branch := by
    intro c s hs b hb i _
    obtain ⟨rfl, rfl⟩ := only hs
    rcases two hb with rfl | rfl <;> simp [prog, num]

theorem guarded : ∀ b ∈ site.branches, ∀ i, (site.part b i).Guarded := by
  intro b hb i h
  rcases two hb with rfl | rfl <;> simp only [site] <;> repeat' split
  all_goals rfl

theorem dual : ∀ b ∈ site.branches, Dual 4 (site.part b) := by
  intro b hb
  rcases two hb with rfl | rfl
  all_goals
    constructor
    · intro p hp q hq hpq
      rcases four hp with rfl | rfl | rfl | rfl <;> rcases four hq with rfl | rfl | rfl | rfl <;>
        first
        | exact absurd rfl hpq
        | simp [site, withs]
    · intro p hp q hq
      rcases four hp with rfl | rfl | rfl | rfl <;> rcases four hq with rfl | rfl | rfl | rfl <;> simp [site]

theorem zOk : z.Ok := by simp [z, Ty.Ok, AllOk, Plain]; decide

theorem enumNe {x : Nat} (h : x < 4) : z.print ≠ site.enum x := by
  rcases four h with rfl | rfl | rfl | rfl <;> simp [z, Ty.print, site]

theorem fit : ∀ me < 4, ∀ s ∈ [site], ∀ b ∈ s.branches, (s.part b me).Fit roles [site] me := by
  intro me hme s hs b hb
  rw [List.mem_singleton] at hs
  subst hs
  have hz : ∀ c ∈ (site.part b me).comms, c.payload = z ∧ c.partner < 4 ∧ c.partner ≠ me := by
    rcases two hb with rfl | rfl <;> rcases four hme with rfl | rfl | rfl | rfl <;> simp [site]
  refine ⟨fun c hc => (hz c hc).2, fun c hc => by rw [(hz c hc).1]; exact zOk, ?_, ?_⟩
  · intro c hc _ s hs x hx
    rw [List.mem_singleton] at hs
    subst hs
    rw [(hz c hc).1]
    exact enumNe hx
  · intro c hc
    have : (site.part b me).next = none := by
      rcases two hb with rfl | rfl <;> rcases four hme with rfl | rfl | rfl | rfl <;> simp [site]
    rw [this] at hc
    cases hc

theorem fitStart (me : Nat) : start.Fit roles [site] me := ⟨by simp [start], by simp [start], by simp [start], by simp [start]⟩

theorem named : Named roles [site] := by
  refine ⟨?_, ?_, ?_, ?_, ?_⟩
  · intro s hs x hx
    rw [List.mem_singleton] at hs
    subst hs
    rcases four hx with rfl | rfl | rfl | rfl <;> simp [site, Plain] <;> decide
  · intro s hs b hb
    rw [List.mem_singleton] at hs
    subst hs
    rcases two hb with rfl | rfl <;> decide
  · intro c d s t hs ht x hx y hy he
    obtain ⟨rfl, rfl⟩ := only hs
    obtain ⟨rfl, rfl⟩ := only ht
    refine ⟨rfl, ?_⟩
    rcases four hx with rfl | rfl | rfl | rfl <;> rcases four hy with rfl | rfl | rfl | rfl <;> simp [site] at he ⊢
  · intro s hs
    rw [List.mem_singleton] at hs
    subst hs
    exact ⟨by simp [site], by simp [site]⟩
  · intro s hs
    rw [List.mem_singleton] at hs
    subst hs
    simp [site, roles, names]

theorem dualStart : Dual 4 (fun _ => start) := ⟨by simp [start, withs], by simp⟩

theorem letters : ∀ i < 4, Letters (names.getD i []) := by
  intro i hi
  rcases four hi with rfl | rfl | rfl | rfl <;> simp only [Letters, names] <;> decide

theorem wr {b : Str} (hb : b ∈ site.branches) {i : Nat} (hi : i < 4) (k : Nat) :
    Written ((site.part b i).fields roles [site] i) (names.getD i []) (textOf k i (site.part b i)) := by
  rcases two hb with rfl | rfl <;> rcases four hi with rfl | rfl | rfl | rfl <;>
    exact C51_case.written (letters _ (by decide)) (by decide +kernel) (by decide +kernel) k

theorem call : Call names [site] (fun _ => start) [textOf 0 1 start, textOf 0 3 start, textOf 0 0 start, textOf 0 2 start]
    (fun e b => textOf 1 (if e = ['E'] then 1 else if e = ['F'] then 2 else 3)
      (site.part b (if e = ['E'] then 1 else if e = ['F'] then 2 else 3))) [group ['M'], group ['L']] := by
  refine ⟨⟨[1, 3, 0, 2], fun i => textOf 0 i start, ?_, rfl, ?_⟩, ?_, ⟨[(0, ['M']), (0, ['L'])], fun _ b => group b, ?_, ?_, rfl, ?_⟩⟩
  · decide
  · intro i hi
    rcases four hi with rfl | rfl | rfl | rfl <;>
      exact C51_case.written (letters _ (by decide)) (by decide +kernel) (by decide +kernel) 0
  · intro s hs x hx hne b hb
    rw [List.mem_singleton] at hs
    subst hs
    rcases four hx with rfl | rfl | rfl | rfl
    · exact absurd rfl hne
    · exact wr hb hx 1
    · exact wr hb hx 1
    · exact wr hb hx 1
  · decide
  · intro c b
    constructor
    · intro h
      simp only [List.mem_cons, Prod.mk.injEq, List.not_mem_nil, or_false] at h
      rcases h with ⟨rfl, rfl⟩ | ⟨rfl, rfl⟩ <;> exact ⟨site, rfl, by simp [site]⟩
    · rintro ⟨s, hs, hb⟩
      obtain ⟨rfl, rfl⟩ := only hs
      rcases two hb with rfl | rfl <;> simp
  · intro c s hs b hb
    obtain ⟨rfl, rfl⟩ := only hs
    exact ⟨List.Perm.refl _, wr hb (by decide) 0⟩

/-! The machines: `S` sends to `P`, `P` receives and sends to `Q`, `Q` receives and sends to `R`, `R` receives. -/

def fin : Part := ⟨[], none⟩

/-- What each role has still to do after `j` steps. -/
def place (j i : Nat) : Part :=
  if i = 0 then if j ≤ 1 then start else if j = 2 then ⟨[⟨true, 1, z⟩], none⟩ else fin
  else if i = 1 then if j ≤ 3 then start else if j = 4 then ⟨[⟨true, 2, z⟩], none⟩ else fin
  else if i = 2 then if j ≤ 5 then start else fin
  else if j = 0 then start else fin

/-- The messages on the way after `j` steps. -/
def way (j x y : Nat) : List Str :=
  if (j = 1 ∧ x = 3 ∧ y = 0) ∨ (j = 3 ∧ x = 0 ∧ y = 1) ∨ (j = 5 ∧ x = 1 ∧ y = 2) then [z.print] else []

/-- The role of each step, and what it does. -/
def act (j : Nat) : Nat × Comm :=
  if j = 0 then (3, ⟨true, 0, z⟩) else if j = 1 then (0, ⟨false, 3, z⟩) else if j = 2 then (0, ⟨true, 1, z⟩)
  else if j = 3 then (1, ⟨false, 0, z⟩) else if j = 4 then (1, ⟨true, 2, z⟩) else (2, ⟨false, 1, z⟩)

structure Stage (ts : Nat → List Trans) (part : Nat → Nat → Part) (j : Nat) (cf : Config) : Prop where
  le : j ≤ 6
  st : ∀ i < 4, part i (cf.st i) = place j i
  reach : ∀ i < 4, ∃ w, Moves (ts i) 0 w (cf.st i)
  queue : ∀ x < 4, ∀ y < 4, cf.queue x y = way j x y

theorem seven {j : Nat} (h : j ≤ 6) : j = 0 ∨ j = 1 ∨ j = 2 ∨ j = 3 ∨ j = 4 ∨ j = 5 ∨ j = 6 := by omega

theorem guarded' (i : Nat) : ∀ k, ∀ B ∈ partsOf [site] i k, B.Guarded := by
  intro k B hB
  unfold partsOf at hB
  split at hB
  · cases hB
  · rename_i s hs
    obtain ⟨_, rfl⟩ := only hs
    obtain ⟨b, hb, rfl⟩ := List.mem_map.mp hB
    exact guarded b hb i

/-- Nothing else can happen. -/
theorem next_only {j i : Nat} (hj : j ≤ 6) (hi : i < 4) {c : Comm} {Q : Part} (h : After (partsOf [site] i) (place j i) c Q)
    (hq : c.out = false → way j c.partner i ≠ []) : j < 6 ∧ act j = (i, c) ∧ Q = place (j + 1) i := by
  rw [C65_next_iff (guarded' i)] at h
  rcases seven hj with rfl | rfl | rfl | rfl | rfl | rfl | rfl <;> rcases four hi with rfl | rfl | rfl | rfl <;>
    simp [C65_next, partsOf, place, start, site, fin] at h <;>
    (try rcases h with ⟨rfl, rfl⟩ | ⟨rfl, rfl⟩) <;>
    (try obtain ⟨rfl, rfl⟩ := h) <;>
    simp [way, act, place, fin] at hq ⊢ <;>
    (try assumption)

theorem next_can {j : Nat} (hj : j < 6) :
    After (partsOf [site] (act j).1) (place j (act j).1) (act j).2 (place (j + 1) (act j).1) ∧ (act j).1 < 4 := by
  rw [C65_next_iff (guarded' _)]
  rcases seven (by omega : j ≤ 6) with rfl | rfl | rfl | rfl | rfl | rfl | rfl <;>
    first
    | omega
    | simp [C65_next, partsOf, place, start, site, fin, act]

/-- The places and messages after a step. -/
theorem place_other {j i x : Nat} (hj : j < 6) (hi : i < 4) (h : (act j).1 = x) (hne : i ≠ x) : place (j + 1) i = place j i := by
  subst h
  rcases seven (by omega : j ≤ 6) with rfl | rfl | rfl | rfl | rfl | rfl | rfl <;>
    rcases four hi with rfl | rfl | rfl | rfl <;>
    first
    | omega
    | exact absurd rfl hne
    | simp [place]

theorem way_send {j x y : Nat} (hj : j < 6) (ho : (act j).2.out = true) :
    way (j + 1) x y = if x = (act j).1 ∧ y = (act j).2.partner then way j x y ++ [z.print] else way j x y := by
  rcases seven (by omega : j ≤ 6) with rfl | rfl | rfl | rfl | rfl | rfl | rfl <;>
    first
    | omega
    | (simp [act] at ho; done)
    | simp [way, act]

theorem way_recv {j x y : Nat} {l : List Str} (hj : j < 6) (ho : (act j).2.out = false)
    (hq : way j (act j).2.partner (act j).1 = z.print :: l) :
    way (j + 1) x y = if x = (act j).2.partner ∧ y = (act j).1 then l else way j x y := by
  rcases seven (by omega : j ≤ 6) with rfl | rfl | rfl | rfl | rfl | rfl | rfl <;>
    first
    | omega
    | (simp [act] at ho; done)
    | (simp [way, act] at hq ⊢; subst hq; split <;> rfl)

theorem payload_act (j : Nat) : (act j).2.payload = z := by
  unfold act
  repeat' split
  all_goals rfl

theorem partner_act (j : Nat) : (act j).2.partner < 4 := by
  unfold act
  repeat' split
  all_goals decide

/-- The machines stand for the parts. -/
def Parts (ts : Nat → List Trans) (part : Nat → Nat → Part) : Prop :=
  ∀ i < 4, part i 0 = start ∧ ∀ w v, Moves (ts i) 0 w v →
    (∀ t ∈ ts i, t.src = v → ∃ c : Comm, After (partsOf [site] i) (part i v) c (part i t.dst) ∧
      t.out = c.out ∧ t.partner = c.partner ∧ t.payload = c.payload.print) ∧
    ∀ c Q, After (partsOf [site] i) (part i v) c Q → ∃ t ∈ ts i, t.src = v ∧ part i t.dst = Q ∧
      t.out = c.out ∧ t.partner = c.partner ∧ t.payload = c.payload.print

variable {ts : Nat → List Trans} {part : Nat → Nat → Part} {j : Nat} {cf cf' : Config}

theorem stage_trans (hp : Parts ts part) (hs : Stage ts part j cf) {i : Nat} (hi : i < 4) {t : Trans} (ht : t ∈ ts i)
    (hsrc : t.src = cf.st i) (hq : t.out = false → cf.queue t.partner i ≠ []) (hx : t.partner < 4) :
    j < 6 ∧ (act j).1 = i ∧ t.out = (act j).2.out ∧ t.partner = (act j).2.partner ∧ t.payload = z.print ∧
      part i t.dst = place (j + 1) i := by
  obtain ⟨w, hw⟩ := hs.reach i hi
  obtain ⟨c, hA, h1, h2, h3⟩ := ((hp i hi).2 w _ hw).1 t ht hsrc
  rw [hs.st i hi] at hA
  obtain ⟨a, b, d⟩ := next_only hs.le hi hA (by
    intro ho
    rw [h1] at hq
    rw [h2] at hq hx
    rw [← hs.queue _ hx _ hi]
    exact hq ho)
  rw [b]
  refine ⟨a, rfl, h1, h2, ?_, d⟩
  rw [h3]
  have := payload_act j
  rw [b] at this
  rw [this]

theorem stage_after (hs : Stage ts part j cf) {i : Nat} (hi : i < 4) {t : Trans} (ht : t ∈ ts i)
    (hsrc : t.src = cf.st i) (hj : j < 6) (hact : (act j).1 = i) (hd : part i t.dst = place (j + 1) i) {q : Nat → Nat → List Str}
    (hq : ∀ x < 4, ∀ y < 4, q x y = way (j + 1) x y) :
    Stage ts part (j + 1) ⟨fun x => if x = i then t.dst else cf.st x, q⟩ := by
  refine ⟨hj, ?_, ?_, hq⟩
  · intro x hx
    simp only
    by_cases h : x = i
    · rw [if_pos h, h]; exact hd
    · rw [if_neg h, hs.st x hx, place_other hj hx hact h]
  · intro x hx
    obtain ⟨w, hw⟩ := hs.reach x hx
    simp only
    by_cases h : x = i
    · subst h
      rw [if_pos rfl]
      exact ⟨_, BottomUp.moves_snoc hw ht hsrc⟩
    · rw [if_neg h]
      exact ⟨w, hw⟩

theorem partner_lt (hp : Parts ts part) (hs : Stage ts part j cf) {i : Nat} (hi : i < 4) {t : Trans} (ht : t ∈ ts i)
    (hsrc : t.src = cf.st i) : t.partner < 4 := by
  obtain ⟨w, hw⟩ := hs.reach i hi
  obtain ⟨c, hA, _, h2, _⟩ := ((hp i hi).2 w _ hw).1 t ht hsrc
  rw [h2]
  rw [hs.st i hi, C65_next_iff (guarded' i)] at hA
  have hle := hs.le
  rcases seven hle with rfl | rfl | rfl | rfl | rfl | rfl | rfl <;> rcases four hi with rfl | rfl | rfl | rfl <;>
    simp [C65_next, partsOf, place, start, site, fin] at hA <;>
    (try rcases hA with ⟨rfl, _⟩ | ⟨rfl, _⟩) <;>
    decide

theorem stage_step (hp : Parts ts part) (hs : Stage ts part j cf) {i : Nat} (hi : i < 4) {a : Action} (hst : CStep ts cf i a cf') :
    Stage ts part (j + 1) cf' := by
  cases hst with
  | @send t ht hsrc ho =>
    have hx := partner_lt hp hs hi ht hsrc
    obtain ⟨h1, h2, h3, h4, h5, h6⟩ := stage_trans hp hs hi ht hsrc (by rw [ho]; simp) hx
    refine stage_after hs hi ht hsrc h1 h2 h6 (fun x hx y hy => ?_)
    rw [way_send h1 (by rw [← h3, ho]), ← h2, ← h4, h5, hs.queue x hx y hy]
  | @recv t l ht hsrc ho hq =>
    have hx := partner_lt hp hs hi ht hsrc
    obtain ⟨h1, h2, h3, h4, h5, h6⟩ := stage_trans hp hs hi ht hsrc (by rw [hq]; simp) hx
    refine stage_after hs hi ht hsrc h1 h2 h6 (fun x hx' y hy => ?_)
    rw [hs.queue _ hx _ hi, h5, h4, ← h2] at hq
    rw [way_recv h1 (by rw [← h3, ho]) hq, ← h2, ← h4, hs.queue x hx' y hy]

theorem stage_can (hp : Parts ts part) (hs : Stage ts part j cf) (hj : j < 6) :
    ∃ a cf', CStep ts cf (act j).1 a cf' ∧ Stage ts part (j + 1) cf' := by
  obtain ⟨hA, hi⟩ := next_can hj
  obtain ⟨w, hw⟩ := hs.reach _ hi
  rw [← hs.st _ hi] at hA
  obtain ⟨t, ht, hsrc, _, h1, h2, h3⟩ := ((hp _ hi).2 w _ hw).2 _ _ hA
  rw [payload_act] at h3
  cases ho : (act j).2.out with
  | true =>
    have hst : CStep ts cf (act j).1 _ _ := .send ht hsrc (by rw [h1, ho])
    exact ⟨_, _, hst, stage_step hp hs hi hst⟩
  | false =>
    have hq : cf.queue t.partner (act j).1 = t.payload :: [] := by
      rw [h2, h3, hs.queue _ (partner_act j) _ hi]
      rcases seven (by omega : j ≤ 6) with rfl | rfl | rfl | rfl | rfl | rfl | rfl <;>
        first
        | omega
        | (simp [act] at ho; done)
        | simp [way, act]
    have hst : CStep ts cf (act j).1 _ _ := .recv ht hsrc (by rw [h1, ho]) hq
    exact ⟨_, _, hst, stage_step hp hs hi hst⟩

theorem stage_run (hp : Parts ts part) {w : List (Nat × Action)} {c0 : Config} (h : CRun 4 ts c0 w cf) (h0 : c0 = .init) :
    ∃ j, Stage ts part j cf := by
  induction h with
  | nil =>
    subst h0
    refine ⟨0, by omega, ?_, ?_, ?_⟩
    · intro i hi
      show part i 0 = _
      rw [(hp i hi).1]
      rcases four hi with rfl | rfl | rfl | rfl <;> simp [place]
    · intro i _
      exact ⟨[], .nil⟩
    · intro x _ y _
      simp [Config.init, way]
  | snoc _ hi hs ih =>
    obtain ⟨j, hj⟩ := ih
    exact ⟨j + 1, stage_step hp hj hi hs⟩

theorem run_to (hp : Parts ts part) : ∀ (d j : Nat) (cf : Config), Stage ts part j cf → j + d ≤ 6 →
    ∃ w cf', CRun 4 ts cf w cf' ∧ Stage ts part (j + d) cf' := by
  intro d
  induction d with
  | zero => intro j cf hs _; exact ⟨[], cf, .nil, hs⟩
  | succ d ih =>
    intro j cf hs hd
    obtain ⟨w, cf1, h1, h2⟩ := ih j cf hs (by omega)
    obtain ⟨a, cf2, h3, h4⟩ := stage_can hp h2 (by omega)
    exact ⟨_, cf2, .snoc h1 (next_can (by omega : j + d < 6)).2 h3, h4⟩

/-- The machines make progress. -/
theorem progress (hts : ∀ i < 4, States (partsOf [site] i) start (ts i)) : Progress 4 ts := by
  have ⟨part, hp⟩ : ∃ part, Parts ts part := by
    refine ⟨fun i => if h : i < 4 then (hts i h).choose else fun _ => fin, fun i hi => ?_⟩
    simp only [dif_pos hi]
    exact (hts i hi).choose_spec
  intro w c i hr hi hrec
  obtain ⟨j, hs⟩ := stage_run hp hr rfl
  have key : ∃ d, j + d < 6 ∧ (act (j + d)).1 = i := by
    obtain ⟨⟨t, ht, hsrc⟩, hall⟩ := hrec
    obtain ⟨w, hw⟩ := hs.reach i hi
    obtain ⟨c', hA, _⟩ := ((hp i hi).2 w _ hw).1 t ht hsrc
    rw [hs.st i hi, C65_next_iff (guarded' i)] at hA
    have hle := hs.le
    rcases seven hle with rfl | rfl | rfl | rfl | rfl | rfl | rfl <;> rcases four hi with rfl | rfl | rfl | rfl <;>
      first
      | (simp [C65_next, place, fin] at hA; done)
      | exact ⟨0, by decide, rfl⟩
      | exact ⟨1, by decide, rfl⟩
      | exact ⟨2, by decide, rfl⟩
      | exact ⟨3, by decide, rfl⟩
      | exact ⟨4, by decide, rfl⟩
      | exact ⟨5, by decide, rfl⟩
  obtain ⟨d, hd, rfl⟩ := key
  obtain ⟨w', cf', h1, h2⟩ := run_to hp d j c hs (by omega)
  obtain ⟨a, cf'', h3, _⟩ := stage_can hp h2 hd
  exact ⟨w', cf', a, cf'', h1, h3⟩

/-! The program: `P` takes the branch `L`, all others follow. -/

/-- The state where all are at the beginning of the branch `L`. -/
def Waiting (s : Mesh.S) : Prop :=
  (∀ r, 1 ≤ r → r ≤ 4 → s.pos r = .mesh (prog.types 1 r) ∧ s.gen r = 1) ∧ ∀ p q, s.queue (1, p, q) = []

theorem waiting : ∃ ls s, Mesh.Run prog (.init prog 0) ls s ∧ Waiting s := by
  have r0 : Mesh.Run prog (.init prog 0) [] _ := .nil _
  have r1 := r0.snoc (.decide (r := 1) (M := prog.types 0 1) (bs := [1, 2]) (N := 1) (by decide) (by decide) rfl rfl
    (by intro q _; rfl) (by decide))
  have r2 := r1.snoc (.tell (r := 1) (N := 1) (q := 2) (rest := [3, 4]) (by decide) (by decide) rfl)
  have r3 := r2.snoc (.tell (r := 1) (N := 1) (q := 3) (rest := [4]) (by decide) (by decide) rfl)
  have r4 := r3.snoc (.tell (r := 1) (N := 1) (q := 4) (rest := []) (by decide) (by decide) rfl)
  have r5 := r4.snoc (.enter (r := 1) (N := 1) (by decide) (by decide) rfl)
  have r6 := r5.snoc (.heed (r := 2) (M := prog.types 0 2) (q := 1) (bs := [1, 2]) (N := 1) (l := []) (by decide) (by decide) rfl
    rfl rfl rfl)
  have r7 := r6.snoc (.heed (r := 3) (M := prog.types 0 3) (q := 1) (bs := [1, 2]) (N := 1) (l := []) (by decide) (by decide) rfl
    rfl rfl rfl)
  have r8 := r7.snoc (.heed (r := 4) (M := prog.types 0 4) (q := 1) (bs := [1, 2]) (N := 1) (l := []) (by decide) (by decide) rfl
    rfl rfl rfl)
  refine ⟨_, _, r8, ?_, ?_⟩
  · intro r h1 h2
    obtain rfl | rfl | rfl | rfl : r = 1 ∨ r = 2 ∨ r = 3 ∨ r = 4 := by omega
    all_goals exact ⟨rfl, rfl⟩
  · intro p q
    simp [Mesh.upd, Mesh.S.init]

theorem stuck {s : Mesh.S} (h : Waiting s) : ¬ ∃ l s', Mesh.Step prog s l s' := by
  obtain ⟨h1, h2⟩ := h
  rintro ⟨l, s', hs⟩
  have hr : ∀ r, 1 ≤ r → r ≤ prog.n → (r = 1 ∨ r = 2 ∨ r = 3) ∨ r = 4 := by
    intro r h1 h2
    have h2 : r ≤ 4 := h2
    omega
  cases hs with
  | send a b hpos hst hse =>
    rw [(h1 _ a b).1] at hpos
    cases hpos
    rcases hr _ a b with (rfl | rfl | rfl) | rfl <;> cases hst <;> cases hse
  | recv a b hpos hst hse hq =>
    rw [(h1 _ a b).2, h2] at hq
    cases hq
  | decide a b hpos hst hall hN =>
    rw [(h1 _ a b).1] at hpos
    cases hpos
    rcases hr _ a b with (rfl | rfl | rfl) | rfl <;> cases hst
  | tell a b hpos =>
    rw [(h1 _ a b).1] at hpos
    cases hpos
  | enter a b hpos =>
    rw [(h1 _ a b).1] at hpos
    cases hpos
  | heed a b hpos hst hse hq =>
    rw [(h1 _ a b).2, h2] at hq
    cases hq

end C65_case

open C65_case in
/-- Without `Begins` it does not hold.  The types of this protocol are well named, its parts fit together, no branch begins with
a choice; with any tool that accepts machines that make progress with the bound 1, the checker gives the bound 1; and
the program comes to a state where no role can do anything and role 1 has not ended. -/
theorem C65_stuck (kmc : List Str → Nat → Bool) (hkmc : ∀ machine, Progress 4 machine → kmc (C65_file names machine) 1 = true) :
    ∃ (sites : List Site) (main : Nat → Part) (sessions : List Str) (variant : Str → Str → Str) (groups : List BranchGroup),
      Named (names.map roleOf) sites ∧
      (∀ me < names.length, (main me).Fit (names.map roleOf) sites me ∧ ∀ s ∈ sites, ∀ b ∈ s.branches,
        (s.part b me).Fit (names.map roleOf) sites me ∧ (s.part b me).Guarded) ∧
      (Dual names.length main ∧ ∀ s ∈ sites, ∀ b ∈ s.branches, Dual names.length (s.part b)) ∧
      Call names sites main sessions variant groups ∧
      (∃ f, ∀ fuel, f ≤ fuel → ∃ graphs file, checkerConcat fuel kmc ['k'] sessions variant groups = some (graphs, file, some 1)) ∧
      ∃ code num Y root, Program names.length sites main code num Y root ∧ ∃ ls s, Mesh.Run Y (.init Y root) ls s ∧
        ¬ Mesh.Finished s 1 ∧ ¬ ∃ l s', Mesh.Step Y s l s' := by
  have hfit' : ∀ me < names.length, ∀ s ∈ [site], ∀ b ∈ s.branches, (s.part b me).Fit (names.map roleOf) [site] me := fit
  have hg : ∀ me < names.length, ∀ s ∈ [site], ∀ b ∈ s.branches, (s.part b me).Guarded := by
    intro me _ s hs b hb
    rw [List.mem_singleton] at hs
    subst hs
    exact guarded b hb me
  refine ⟨[site], fun _ => start, _, _, _, named, ?_, ⟨dualStart, ?_⟩, call, ?_, List.length, num, prog, 0, program, ?_⟩
  · intro me hme
    exact ⟨fitStart me, fun s hs b hb => ⟨hfit' me hme s hs b hb, hg me hme s hs b hb⟩⟩
  · intro s hs
    rw [List.mem_singleton] at hs
    subst hs
    exact dual
  · obtain ⟨f, hf⟩ := C51_checker_partial names (by decide) (by decide) [site] named hfit' hg (fun _ => start)
      (fun me _ => fitStart me) _ _ _ call kmc ['k']
    refine ⟨f, fun fuel hl => ?_⟩
    obtain ⟨graph, machine, graphs, h1, _, h2⟩ := hf fuel hl
    refine ⟨graphs, some (C65_file names machine), h1.trans ?_⟩
    rw [if_neg (by decide : ¬ (['k'] : Str) = []), if_neg (by decide : ¬ (['k'] : Str) = [])]
    have hp : Progress 4 machine := progress fun i hi => (h2 i hi).states
    have : kmcSearch (kmc (C65_file names machine)) = some 1 :=
      (C27_least_partial _ 1).mpr ⟨⟨by omega, hkmc machine hp, fun j a b => by omega⟩, by omega⟩
    show some (graphs, some (C65_file names machine), kmcSearch (kmc (C65_file names machine))) = _
    rw [this]
  · obtain ⟨ls, s, h1, h2⟩ := waiting
    refine ⟨ls, s, h1, ?_, stuck h2⟩
    rintro ⟨M, hM, hf⟩
    rw [(h2.1 1 (by omega) (by omega)).1] at hM
    cases hM
    cases hf

/-! Where it holds: `B` chooses again and again between a further message from `A` and the end (the case of C51). -/

namespace C65_good

open C51_case (site payload)

def start : Part := ⟨[], some 0⟩

def machine (i : Nat) : List Trans :=
  if i = 0 then [⟨0, true, 1, payload.print, 0⟩] else [⟨0, false, 0, payload.print, 0⟩]

def num (_ : Nat) (b : Str) : Mesh.Name := if b = ['M'] then 1 else 2

def prog : Mesh.Sys where
  n := 2
  types := fun N r => if N = 0 then start.mesh List.length num [site] (r - 1)
    else if N = 1 then (site.part ['M'] (r - 1)).mesh List.length num [site] (r - 1)
    else (site.part ['S'] (r - 1)).mesh List.length num [site] (r - 1)

theorem only {c : Nat} {s : Site} (h : [site][c]? = some s) : c = 0 ∧ s = site := by
  cases c with
  | zero => simpa using h.symm
  | succ c => simp at h

theorem two {b : Str} (h : b ∈ site.branches) : b = ['M'] ∨ b = ['S'] := by simpa [site] using h

theorem role {i : Nat} (h : i < 2) : i = 0 ∨ i = 1 := by omega

theorem coherent : Coherent 2 [site] fun _ => start := by
  have hd : ∀ b ∈ site.branches, Dual 2 (site.part b) := by
    intro b hb
    rcases two hb with rfl | rfl
    all_goals
      constructor
      · intro p hp q hq hpq
        rcases role hp with rfl | rfl <;> rcases role hq with rfl | rfl <;>
          first
          | exact absurd rfl hpq
          | simp [site, withs]
      · intro p hp q hq
        rcases role hp with rfl | rfl <;> rcases role hq with rfl | rfl <;> simp [site]
  refine ⟨by omega, ⟨by simp [start, withs], by simp⟩, ?_, by simp [start], ?_, by simp [start], ?_, ?_, ?_⟩
  · intro s hs
    rw [List.mem_singleton] at hs
    subst hs
    exact hd
  · intro s hs b hb i hi
    rw [List.mem_singleton] at hs
    subst hs
    rcases two hb with rfl | rfl <;> rcases role hi with rfl | rfl <;> simp [site]
  · intro s hs b hb i hi
    rw [List.mem_singleton] at hs
    subst hs
    rcases two hb with rfl | rfl <;> rcases role hi with rfl | rfl <;> simp [site]
  · intro s hs
    rw [List.mem_singleton] at hs
    subst hs
    simp [site]
  · intro s hs b hb i hi
    rw [List.mem_singleton] at hs
    subst hs
    rcases two hb with rfl | rfl <;> rcases role hi with rfl | rfl <;> simp [site, Part.Guarded]

theorem program : Program 2 [site] (fun _ => start) List.length num prog 0 where
  roles := rfl
  start := by
    intro i _
    simp [prog]
  branch := by
    intro c s hs b hb i _
    obtain ⟨rfl, rfl⟩ := only hs
    rcases two hb with rfl | rfl <;> simp [prog, num]

theorem states {i : Nat} (hi : i < 2) : States (partsOf [site] i) start (machine i) := by
  have hg : ∀ k, ∀ B ∈ partsOf [site] i k, B.Guarded := by
    intro k B hB
    unfold partsOf at hB
    split at hB
    · cases hB
    · rename_i s hs
      obtain ⟨_, rfl⟩ := only hs
      obtain ⟨b, hb, rfl⟩ := List.mem_map.mp hB
      exact coherent.guarded site (List.mem_singleton.mpr rfl) b hb i hi
  have h0 : ∀ w v u, Moves (machine i) u w v → u = 0 → v = 0 := by
    intro w v u h
    induction h with
    | nil => exact id
    | step ht _ ih =>
      intro _
      apply ih
      rcases role hi with rfl | rfl <;> simp [machine] at ht <;> rw [ht]
  refine ⟨fun _ => start, rfl, fun w v hv => ?_⟩
  obtain rfl := h0 w v 0 hv rfl
  constructor
  · intro t ht _
    rcases role hi with rfl | rfl
    · refine ⟨⟨true, 1, payload⟩, ?_, ?_⟩
      · rw [C65_next_iff hg]
        simp [C65_next, partsOf, site, start]
      · simp [machine] at ht
        simp [ht]
    · refine ⟨⟨false, 0, payload⟩, ?_, ?_⟩
      · rw [C65_next_iff hg]
        simp [C65_next, partsOf, site, start]
      · simp [machine] at ht
        simp [ht]
  · intro c Q h
    rw [C65_next_iff hg] at h
    rcases role hi with rfl | rfl
    · simp [C65_next, partsOf, site, start] at h
      obtain ⟨rfl, rfl⟩ := h
      exact ⟨_, List.mem_singleton.mpr rfl, rfl, rfl, rfl, rfl, rfl⟩
    · simp [C65_next, partsOf, site, start] at h
      obtain ⟨rfl, rfl⟩ := h
      exact ⟨_, List.mem_singleton.mpr rfl, rfl, rfl, rfl, rfl, rfl⟩

theorem inv {c0 c : Config} {w : List (Nat × Action)} (h : CRun 2 machine c0 w c) (h0 : c0 = .init) :
    (∀ i, c.st i = 0) ∧ ∀ x ∈ c.queue 0 1, x = payload.print := by
  induction h with
  | nil => subst h0; exact ⟨fun _ => rfl, by simp [Config.init]⟩
  | snoc _ hi hs ih =>
    obtain ⟨a, b⟩ := ih
    cases hs with
    | send ht _ ho =>
      rcases role hi with rfl | rfl <;> simp [machine] at ht
      · subst ht
        refine ⟨?_, ?_⟩
        · intro i
          simp only
          split
          · rfl
          · exact a i
        · intro x hx
          simp at hx
          rcases hx with hx | hx
          · exact b x hx
          · exact hx
      · subst ht
        cases ho
    | recv ht _ ho hq =>
      rcases role hi with rfl | rfl <;> simp [machine] at ht
      · subst ht
        cases ho
      · subst ht
        refine ⟨?_, ?_⟩
        · intro i
          simp only
          split
          · rfl
          · exact a i
        · intro x hx
          simp only [and_self, if_true] at hx
          exact b x (by rw [hq]; exact List.mem_cons_of_mem _ hx)

theorem progress : Progress 2 machine := by
  intro w c i hr hi hrec
  obtain ⟨h1, h2⟩ := inv hr rfl
  rcases role hi with rfl | rfl
  · have := hrec.2 ⟨0, true, 1, payload.print, 0⟩ (List.mem_singleton.mpr rfl) (h1 0).symm
    cases this
  · cases hq : c.queue 0 1 with
    | cons x l =>
      refine ⟨[], c, _, _, .nil, .recv (t := ⟨0, false, 0, payload.print, 0⟩) (l := l) (List.mem_singleton.mpr rfl) (h1 1).symm rfl ?_⟩
      rw [show x = payload.print from h2 x (by rw [hq]; exact List.mem_cons_self)] at hq
      exact hq
    | nil =>
      have hs : CStep machine c 0 _ _ := .send (t := ⟨0, true, 1, payload.print, 0⟩) (List.mem_singleton.mpr rfl) (h1 0).symm rfl
      refine ⟨_, _, _, _, .snoc .nil (by omega) hs, .recv (t := ⟨0, false, 0, payload.print, 0⟩) (l := [])
        (List.mem_singleton.mpr rfl) ?_ rfl ?_⟩
      · simp [h1 1]
      · simp [hq]

theorem begins : Begins 2 [site] := by
  intro s hs _ b hb i hi hne
  rw [List.mem_singleton] at hs
  subst hs
  rcases two hb with rfl | rfl <;> rcases role hi with rfl | rfl <;> simp [site] at hne
  all_goals first
    | exact .send .zero rfl rfl
    | exact .recv (m := 1) .zero rfl rfl (.send .zero rfl rfl) (by decide)

theorem numbered {c c' : Nat} {s s' : Site} (h : [site][c]? = some s) (h' : [site][c']? = some s') {b b' : Str}
    (hb : b ∈ s.branches) (hb' : b' ∈ s'.branches) (he : num c b = num c' b') : c = c' ∧ b = b' := by
  obtain ⟨rfl, rfl⟩ := only h
  obtain ⟨rfl, rfl⟩ := only h'
  rcases two hb with rfl | rfl <;> rcases two hb' with rfl | rfl <;> simp [num] at he ⊢

/-- Both branches are chosen. -/
theorem chosen {b : Str} (hb : b ∈ site.branches) : ∃ ls s' r, Mesh.Run prog (.init prog 0) ls s' ∧
    Mesh.Label.act r (.decide (num 0 b)) ∈ ls := by
  refine ⟨_, _, 2, .snoc (.nil _) (.decide (r := 2) (M := start.mesh List.length num [site] 1) (bs := branchNames num [site] 0)
    (N := num 0 b) (by omega) (by decide) ?_ ?_ ?_ ?_), by simp⟩
  · simp [prog, Mesh.S.init]
  · simp [start, Part.mesh, partnersThen, partnersLast, chooser, site]
  · intro q _
    simp [start, Part.mesh, sessionOf, sessionLast, chooser, site]
  · simp only [branchNames, List.getElem?_cons_zero]
    exact List.mem_map.mpr ⟨b, hb, rfl⟩

/-- A run in which a value is sent and both roles end. -/
theorem ends : ∃ ls s, Mesh.Run prog (.init prog 0) ls s ∧ Mesh.Finished s 1 ∧ Mesh.Finished s 2 ∧ sentTo 1 2 (commsOf ls) ≠ [] := by
  refine ⟨_, _, .snoc (.snoc (.snoc (.snoc (.snoc (.snoc (.snoc (.snoc (.snoc (.snoc (.nil _)
    (.decide (r := 2) (N := 1) (bs := [1, 2]) (by decide) (by decide) (by rfl) (by rfl) ?_ (by decide)))
    (.tell (r := 2) (by decide) (by decide) (by rfl)))
    (.enter (r := 2) (by decide) (by decide) (by rfl)))
    (.heed (r := 1) (q := 2) (N := 1) (bs := [1, 2]) (l := []) (by decide) (by decide) (by rfl) (by rfl) (by rfl) (by rfl)))
    (.send (r := 1) (q := 2) (by decide) (by decide) (by rfl) (by rfl) (by rfl)))
    (.recv (r := 2) (q := 1) (l := []) (by decide) (by decide) (by rfl) (by rfl) (by rfl) (by rfl)))
    (.decide (r := 2) (N := 2) (bs := [1, 2]) (by decide) (by decide) (by rfl) (by rfl) ?_ (by decide)))
    (.tell (r := 2) (by decide) (by decide) (by rfl)))
    (.enter (r := 2) (by decide) (by decide) (by rfl)))
    (.heed (r := 1) (q := 2) (N := 2) (bs := [1, 2]) (l := []) (by decide) (by decide) (by rfl) (by rfl) (by rfl) (by rfl)),
    ⟨_, rfl, rfl⟩, ⟨_, rfl, rfl⟩, by decide⟩
  all_goals
    intro q hq
    have hq : (1 ≤ q ∧ q < 3) ∧ ¬q = 2 := by simpa [Mesh.others, prog] using hq
    obtain rfl : q = 1 := by omega
    rfl

end C65_good

open C65_good C51_case in
/-- `C65_live_iff` applies to it. -/
example : Lively prog 0 ↔ Begins 2 [site] :=
  C65_live_iff 2 [site] (fun _ => start) List.length C65_good.num prog 0 program coherent
    (fun _ _ _ _ h h' _ hb _ hb' he => numbered h h' hb hb' he)
    (fun _ _ h _ _ hb => by obtain ⟨rfl, rfl⟩ := only h; exact chosen hb)
    machine (fun _ hi => states hi) C65_good.progress

open C65_good C51_case in
/-- So does `C65_no_orphans`. -/
example : ∃ ls s, Mesh.Run prog (.init prog 0) ls s ∧ Mesh.Finished s 2 ∧ sentTo 1 2 (commsOf ls) ≠ [] ∧
    receivedFrom 2 1 (commsOf ls) = sentTo 1 2 (commsOf ls) :=
  let ⟨ls, s, h, _, h2, h3⟩ := ends
  ⟨ls, s, h, h2, h3, ((C65_no_orphans 2 [site] (fun _ => start) List.length C65_good.num prog 0 program coherent machine
    (fun _ hi => states hi) ls s h 1 2 (by decide) (by decide) (by decide)).2 h2).1⟩

open C65_good C51_case in
/-- The hypotheses of `C65_runs`, `C65_typed`, `C65_progress_partial`, `C65_live_partial` hold for it. -/
example : Program 2 [site] (fun _ => start) List.length C65_good.num prog 0 ∧ Coherent 2 [site] (fun _ => start) ∧
    Begins 2 [site] ∧ (∀ i < 2, States (partsOf [site] i) start (machine i)) ∧ Progress 2 machine :=
  ⟨program, coherent, begins, fun _ hi => states hi, C65_good.progress⟩

open Classical in
/-- A tool as in `C65_checked_partial`: it accepts what makes progress. (The other hypotheses are those of
`C51_checker_partial`, met by the case shown there, and those met above.) -/
example (names : List Str) : ∃ kmc : List Str → Nat → Bool, ∀ machine k, kmc (C65_file names machine) k = true →
    Progress names.length machine :=
  ⟨fun file _ => decide (∀ machine, file = C65_file names machine → Progress names.length machine), fun machine k h => by
    simpa using of_decide_eq_true h machine rfl⟩

/-- A tool as in `C65_stuck`. -/
example : ∃ kmc : List Str → Nat → Bool, ∀ machine, Progress 4 machine → kmc (C65_file C65_case.names machine) 1 = true :=
  ⟨fun _ _ => true, fun _ _ => rfl⟩

end Verif.Prop
