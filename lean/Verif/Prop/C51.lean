import Verif.Proof.CheckerCall
import Verif.Prop.C50
import Verif.Prop.C27
import Mathlib.Data.List.Infix

/-!
# C51: from the types named in a call of `checker_concat!` to graphs, file and bound
-/
namespace Verif.Prop
open Verif.Check Verif.Spec

/-- The text of a well-named `MeshedChannels` type, as Rust gives it, with paths and behind references: the cleaning gives
the texts of the fields without paths and blanks, then `RoleX<RoleEnd>` and `RoleX`.

Missing: types whose names are not `WellNamed`, or where `Name` occurs elsewhere, or roles with digits in their names; for
them it does not hold, see the cases `C51_nested_path` and following. -/
theorem C51_clean_partial (fields : List Ty) (x text : Str) (h : Written fields x text) :
    cleanSession text = some (fields.map Ty.print ++
      [roleOf x ++ ['<', 'R', 'o', 'l', 'e', 'E', 'n', 'd', '>'], roleOf x]) :=
  clean_written h

/-- For every protocol whose choices are enums, given to `checker_concat!` in any order with well-named types, no branch of
which begins with another choice: the checker gives for each role its graph, whose walks are the runs of the role; with a
file name, the file holds the machines of the roles in alphabetical order, each followed by an empty line, whose moves are
the runs of the role, and the bound is the result of the search (`C27`) with this file.

Missing: types that are not well named (see `C51_clean_partial`), branches that begin with another choice (see C50). -/
theorem C51_checker_partial (names : List Str) (hlen : 2 ≤ names.length) (hsorted : names.Pairwise (· < ·)) (sites : List Site)
    (hnamed : Named (names.map roleOf) sites)
    (hfit : ∀ me < names.length, ∀ s ∈ sites, ∀ b ∈ s.branches, (s.part b me).Fit (names.map roleOf) sites me)
    (hguard : ∀ me < names.length, ∀ s ∈ sites, ∀ b ∈ s.branches, (s.part b me).Guarded)
    (main : Nat → Part) (hmain : ∀ me < names.length, (main me).Fit (names.map roleOf) sites me)
    (sessions : List Str) (variant : Str → Str → Str) (groups : List BranchGroup)
    (hcall : Call names sites main sessions variant groups) (kmc : List Str → Nat → Bool) (nameFile : Str) :
    ∃ f, ∀ fuel, f ≤ fuel → ∃ (graph : Nat → Graph) (machine : Nat → List Trans) (graphs : List (Str × Graph)),
      let file := (List.range names.length).flatMap fun i => machineFile (roleOf (names.getD i [])) (machine i) ++ [[]]
      checkerConcat fuel kmc nameFile sessions variant groups =
        some (graphs, if nameFile = [] then none else some file, if nameFile = [] then none else kmcSearch (kmc file)) ∧
      graphs.Perm ((List.range names.length).map fun i => (roleOf (names.getD i []), graph i)) ∧
      ∀ i < names.length, Faithful (names.map roleOf) sites i (main i) (graph i) (machine i) := by
  obtain ⟨order, text, ho, rfl, hw⟩ := hcall.starts
  have hrs : (names.map roleOf).Pairwise (· < ·) := by
    rw [List.pairwise_map]
    refine hsorted.imp ?_
    intro a b hab
    simpa [roleOf] using hab
  have hrn : (names.map roleOf).Nodup := hrs.imp fun {a b} h e => by
    subst e
    exact List.lt_irrefl _ h
  have hplain : ∀ r ∈ names.map roleOf, ∀ ch ∈ r, Plain ch := by
    intro r hr ch hc
    obtain ⟨x, hx, rfl⟩ := List.mem_map.mp hr
    obtain ⟨i, hi, rfl⟩ := List.mem_iff_getElem.mp hx
    obtain ⟨_, q, hq, _⟩ := hw i hi
    have hl := hq.letters
    rw [List.getD_eq_getElem?_getD, List.getElem?_eq_getElem hi, Option.getD_some] at hl
    rcases List.mem_append.mp hc with hc | hc
    · have : ∀ c ∈ ['R', 'o', 'l', 'e'], Plain c := by simp only [Plain]; decide
      exact this ch hc
    · exact letter_plain (letters_digit hl ch hc)
  have hgiven := given_call hnamed hcall
  have hclean := cleanSessions_written (roles := names.map roleOf) rfl hrs (by omega) ho text
    (fun i => (main i).fields (names.map roleOf) sites i) (fun i hi => fields_getD hi _) hw
  have hrole : ∀ i < names.length, (names.map roleOf).getD i [] = roleOf (names.getD i []) := by
    intro i hi
    simp [List.getD_eq_getElem?_getD, List.getElem?_map, List.getElem?_eq_getElem hi]
  -- one role
  have one : ∀ i < names.length, ∃ f, ∀ fuel, f ≤ fuel → ∃ g ts,
      getGraphSession fuel ((names.map roleOf).getD i []) (((main i).fields (names.map roleOf) sites i).map Ty.print)
        (names.map roleOf) (look (cleanReceivers variant groups)) (look (cleanBranching groups)) (look (groupsOf groups))
        ((groupsOf groups).map (·.1)) = some (g, machineFile ((names.map roleOf).getD i []) ts) ∧
      Faithful (names.map roleOf) sites i (main i) g ts := by
    intro i hi
    have hi' : i < (names.map roleOf).length := by simpa using hi
    have he : (names.map roleOf)[i] = (names.map roleOf).getD i [] := by
      rw [List.getD_eq_getElem?_getD, List.getElem?_eq_getElem hi', Option.getD_some]
    obtain ⟨f, hf⟩ := C50_loops_partial (names.map roleOf) sites i hrn hplain hi' (by simpa using hlen) hnamed _ _ _ _ hgiven
      (hfit i hi) (hguard i hi) (main i) (hmain i hi)
    rw [he] at hf
    refine ⟨f, fun fuel hl => ?_⟩
    obtain ⟨g, ts, h1, h2, h3, h4, h5⟩ := hf fuel hl
    exact ⟨g, ts, h1, ⟨h2, h3, h4, h5⟩⟩
  -- enough for all roles
  have all : ∃ f, ∀ fuel, f ≤ fuel → ∀ i < names.length, ∃ g ts,
      getGraphSession fuel ((names.map roleOf).getD i []) (((main i).fields (names.map roleOf) sites i).map Ty.print)
        (names.map roleOf) (look (cleanReceivers variant groups)) (look (cleanBranching groups)) (look (groupsOf groups))
        ((groupsOf groups).map (·.1)) = some (g, machineFile ((names.map roleOf).getD i []) ts) ∧
      Faithful (names.map roleOf) sites i (main i) g ts := by
    have : ∀ n ≤ names.length, ∃ f, ∀ fuel, f ≤ fuel → ∀ i < n, ∃ g ts,
        getGraphSession fuel ((names.map roleOf).getD i []) (((main i).fields (names.map roleOf) sites i).map Ty.print)
          (names.map roleOf) (look (cleanReceivers variant groups)) (look (cleanBranching groups)) (look (groupsOf groups))
          ((groupsOf groups).map (·.1)) = some (g, machineFile ((names.map roleOf).getD i []) ts) ∧
        Faithful (names.map roleOf) sites i (main i) g ts := by
      intro n
      induction n with
      | zero => exact fun _ => ⟨0, by simp⟩
      | succ n ih =>
        intro hn
        obtain ⟨f1, h1⟩ := ih (by omega)
        obtain ⟨f2, h2⟩ := one n (by omega)
        refine ⟨max f1 f2, fun fuel hf i hi => ?_⟩
        rcases Nat.lt_or_ge i n with h | h
        · exact h1 fuel (by omega) i h
        · obtain rfl : i = n := by omega
          exact h2 fuel (by omega)
    exact this names.length (Nat.le_refl _)
  obtain ⟨f, hf⟩ := all
  refine ⟨f, fun fuel hl => ?_⟩
  have hf := hf fuel hl
  have hchoice : ∃ (graph : Nat → Graph) (machine : Nat → List Trans), ∀ i < names.length,
      getGraphSession fuel ((names.map roleOf).getD i []) (((main i).fields (names.map roleOf) sites i).map Ty.print)
        (names.map roleOf) (look (cleanReceivers variant groups)) (look (cleanBranching groups)) (look (groupsOf groups))
        ((groupsOf groups).map (·.1)) = some (graph i, machineFile ((names.map roleOf).getD i []) (machine i)) ∧
      Faithful (names.map roleOf) sites i (main i) (graph i) (machine i) := by
    refine ⟨fun i => if h : i < names.length then (hf i h).choose else ⟨[], []⟩,
      fun i => if h : i < names.length then (hf i h).choose_spec.choose else [], fun i hi => ?_⟩
    simp only [dif_pos hi]
    exact (hf i hi).choose_spec.choose_spec
  obtain ⟨graph, machine, hgm⟩ := hchoice
  refine ⟨graph, machine, order.map fun i => (roleOf (names.getD i []), graph i), ?_, ho.map _, fun i hi => (hgm i hi).2⟩
  have hlt : ∀ i ∈ order, i < names.length := fun i hi => List.mem_range.mp (ho.mem_iff.mp hi)
  have hout : (order.map fun i => ((names.map roleOf).getD i [], ((main i).fields (names.map roleOf) sites i).map Ty.print)).mapM
      (fun r => do
        let (g, cfsm) ← getGraphSession fuel r.1 r.2 (names.map roleOf) (look (cleanReceivers variant groups))
          (look (cleanBranching groups)) (look (groupsOf groups)) ((groupsOf groups).map (·.1))
        some (r.1, g, cfsm)) =
      some (order.map fun i => (roleOf (names.getD i []), graph i, machineFile (roleOf (names.getD i [])) (machine i))) := by
    rw [List.mapM_map]
    apply mapM_some
    intro i hi
    have h := (hgm i (hlt i hi)).1
    rw [hrole i (hlt i hi)] at h
    simp only [Function.comp_apply, hrole i (hlt i hi), h]
    rfl
  have hfile : ((names.map roleOf).flatMap fun r => ((((order.map fun i => (roleOf (names.getD i []), graph i,
        machineFile (roleOf (names.getD i [])) (machine i))).find? fun o => o.1 == r).map fun o => o.2.2).getD [[]]) ++ [[]]) =
      (List.range names.length).flatMap fun i => machineFile (roleOf (names.getD i [])) (machine i) ++ [[]] := by
    have hmap : names.map roleOf = (List.range names.length).map fun i => roleOf (names.getD i []) := by
      apply List.ext_getElem
      · simp
      · intro i h1 h2
        simp only [List.length_map] at h1
        simp [List.getD_eq_getElem?_getD, List.getElem?_eq_getElem h1]
    rw [hmap, List.flatMap_map]
    apply List.flatMap_congr
    intro i hi
    have hi' := List.mem_range.mp hi
    congr 1
    have hl := look_of_mem (m := order.map fun i => (roleOf (names.getD i []), graph i,
        machineFile (roleOf (names.getD i [])) (machine i))) (k := roleOf (names.getD i []))
        (v := (graph i, machineFile (roleOf (names.getD i [])) (machine i))) (by
      rw [List.map_map, (ho.map _).nodup_iff]
      rw [hmap] at hrn
      exact hrn) (List.mem_map.mpr ⟨i, ho.mem_iff.mpr hi, rfl⟩)
    unfold look at hl
    obtain ⟨e, h1, h2⟩ := Option.map_eq_some_iff.mp hl
    rw [h1]
    simp [h2]
  unfold checkerConcat checker
  have hrecv := receivers_clean hnamed hcall
  have hbran := branching_clean hnamed hcall
  simp only [Option.bind_eq_bind] at hrecv hbran hout ⊢
  rw [hclean]
  simp only [Option.bind_some]
  rw [hrecv]
  simp only [Option.bind_some]
  rw [hbran]
  simp only [Option.bind_some]
  rw [hout]
  simp only [Option.bind_some, hfile, List.map_map, Function.comp_def]
  split <;> rfl

/-! A case: `B` chooses again and again between a further message of a type in a module and the end. -/

namespace C51_case

def names : List Str := [['A'], ['B']]

def payload : Ty := .mk ['i'] []

def site : Site where
  sender := 1
  enum := fun x => if x = 0 then ['E'] else ['F']
  branches := [['M'], ['S']]
  part := fun b x =>
    if b = ['M'] then if x = 0 then ⟨[⟨true, 1, payload⟩], some 0⟩ else ⟨[⟨false, 0, payload⟩], some 0⟩
    else ⟨[], none⟩

mutual
  /-- All types in the module `m`. -/
  def dress : Ty → PTy
    | .mk n as => .mk [['m']] n (dressAll as)
  def dressAll : List Ty → List PTy
    | [] => []
    | a :: as => dress a :: dressAll as
end

def mesh (fields : List Ty) (x : Str) : PTy :=
  .mk [['m']] ['M', 'e', 's', 'h'] (dressAll fields ++ [.mk [['m']] (['N', 'a', 'm', 'e'] ++ x) []])

/-- A sufficient check. -/
def check (nodes : List (List Str × Str)) : Bool :=
  nodes.all (fun x => (x.2 :: x.1).all fun s => s ≠ [] ∧ s.all fun c => c ≠ '<' ∧ c ≠ '>' ∧ c ≠ ',' ∧ c ≠ '&' ∧ isWs c = false ∧ c ≠ ':') &&
  nodes.all fun x => nodes.all fun y => x.1 = [] ∨
    (((token y.1 y.2).tails.all fun t => t = token y.1 y.2 ∨ ¬ (token x.1 x.2).isPrefixOf t) ∧
      ((token x.1 x.2).isPrefixOf (token y.1 y.2) → ':' ∉ (token y.1 y.2).drop (token x.1 x.2).length))

theorem check_sound {nodes : List (List Str × Str)} (h : check nodes = true) : WellNamed nodes := by
  unfold check at h
  simp only [Bool.and_eq_true, List.all_eq_true] at h
  obtain ⟨h1, h2⟩ := h
  constructor
  · intro x hx
    have h3 := h1 x hx
    have key : ∀ s ∈ x.2 :: x.1, Ident s := by
      intro s hs
      have := h3 s hs
      simp only [ne_eq, decide_eq_true_eq] at this
      exact ⟨this.1, fun c hc => by
        have := this.2 c hc
        exact ⟨⟨this.1, this.2.1, this.2.2.1, this.2.2.2.1, this.2.2.2.2.1⟩, this.2.2.2.2.2⟩⟩
    exact ⟨key _ List.mem_cons_self, fun s hs => key s (List.mem_cons_of_mem _ hs)⟩
  · intro x hx y hy hne hi
    have h3 := h2 x hx y hy
    simp only [decide_eq_true_eq] at h3
    rcases h3 with h3 | ⟨h3, h4⟩
    · exact absurd h3 hne
    · rw [List.infix_iff_prefix_suffix] at hi
      obtain ⟨t, h5, h6⟩ := hi
      have := h3 t ((List.mem_tails _ _).mpr h6)
      rw [List.isPrefixOf_iff_prefix] at this h4
      rcases this with rfl | h7
      · refine ⟨_, ?_, h4 h5⟩
        obtain ⟨u, hu⟩ := h5
        rw [← hu]
        simp
      · exact absurd h5 h7

mutual
  theorem erase_dress : ∀ t : Ty, (dress t).erase = t
    | .mk n as => by
      rw [dress, PTy.erase, eraseAll_dress as]
  theorem eraseAll_dress : ∀ as : List Ty, eraseAll (dressAll as) = as
    | [] => by simp [dressAll, eraseAll]
    | a :: as => by rw [dressAll, eraseAll, erase_dress a, eraseAll_dress as]
end

def hasName : Str → Bool := fun s => s.tails.any fun t => ['N', 'a', 'm', 'e'].isPrefixOf t

theorem noName_of {s : Str} (h : hasName s = false) : NoName s := by
  intro hi
  rw [List.infix_iff_prefix_suffix] at hi
  obtain ⟨t, h5, h6⟩ := hi
  unfold hasName at h
  rw [List.any_eq_false] at h
  exact h t ((List.mem_tails _ _).mpr h6) (List.isPrefixOf_iff_prefix.mpr h5)

theorem written {fields : List Ty} {x : Str} (hx : Letters x) (h1 : check (mesh fields x).nodes = true)
    (h2 : (nodesAll (dressAll fields)).all (fun y => !hasName y.2) = true) (k : Nat) :
    Written fields x (List.replicate k '&' ++ (mesh fields x).print) := by
  refine ⟨k, mesh fields x, ⟨⟨_, _, dressAll fields, _, rfl, eraseAll_dress fields, ?_, noName_of (by decide +kernel)⟩, hx, check_sound h1⟩, rfl⟩
  intro y hy
  rw [List.all_eq_true] at h2
  exact noName_of (by simpa using h2 y hy)

def roles : List Str := names.map roleOf

def textOf (k : Nat) (i : Nat) (P : Part) : Str :=
  List.replicate k '&' ++ (mesh (P.fields roles [site] i) (names.getD i [])).print

def group (b : Str) : BranchGroup := ⟨textOf 0 1 (site.part b 1), [(['E'], b)]⟩

end C51_case

open C51_case in
/-- The hypotheses of `C51_checker_partial` hold for it. -/
example : 2 ≤ names.length ∧ names.Pairwise (· < ·) ∧ Named roles [site] ∧
    (∀ me < names.length, (∀ s ∈ [site], ∀ b ∈ s.branches, (s.part b me).Fit roles [site] me ∧ (s.part b me).Guarded) ∧
      Part.Fit roles [site] me ⟨[], some 0⟩) ∧
    Call names [site] (fun _ => ⟨[], some 0⟩) [textOf 0 1 ⟨[], some 0⟩, textOf 0 0 ⟨[], some 0⟩]
      (fun _ b => textOf 2 0 (site.part b 0)) [group ['S'], group ['M']] := by
  have hx : ∀ x, x < roles.length → x = 0 ∨ x = 1 := by
    intro x hx
    have : roles.length = 2 := rfl
    omega
  have hl : ∀ i < names.length, Letters (names.getD i []) := by
    intro i hi
    have : i = 0 ∨ i = 1 := hx i hi
    rcases this with rfl | rfl <;> simp only [Letters, names] <;> decide
  have h0 : ∀ (c : Nat) (s : Site), [site][c]? = some s → c = 0 ∧ s = site := by
    intro c s h
    cases c with
    | zero => simpa using h.symm
    | succ c => simp at h
  have hpay : payload.Ok := by simp [payload, Ty.Ok, AllOk, Plain]; decide
  refine ⟨by decide, by decide, ?_, ?_, ?_⟩
  · refine ⟨?_, ?_, ?_, ?_, ?_⟩
    · intro s hs x hxl
      rw [List.mem_singleton] at hs
      subst hs
      rcases hx x hxl with rfl | rfl <;> simp [site, Plain] <;> decide
    · intro s hs b hb
      rw [List.mem_singleton] at hs
      subst hs
      simp only [site, List.mem_cons, List.not_mem_nil, or_false] at hb
      rcases hb with rfl | rfl <;> decide
    · intro c d s t hs ht x hxl y hyl he
      obtain ⟨rfl, rfl⟩ := h0 c s hs
      obtain ⟨rfl, rfl⟩ := h0 d t ht
      refine ⟨rfl, ?_⟩
      rcases hx x hxl with rfl | rfl <;> rcases hx y hyl with rfl | rfl <;> simp [site] at he ⊢
    · intro s hs
      rw [List.mem_singleton] at hs
      subst hs
      exact ⟨by simp [site], by simp [site]⟩
    · intro s hs
      rw [List.mem_singleton] at hs
      subst hs
      simp [site, roles, names]
  · intro me hme
    refine ⟨?_, ⟨by simp, by simp, by simp, by simp⟩⟩
    intro s hs b hb
    rw [List.mem_singleton] at hs
    subst hs
    simp only [site, List.mem_cons, List.not_mem_nil, or_false] at hb
    rcases hx me hme with rfl | rfl <;> rcases hb with rfl | rfl
    · refine ⟨⟨?_, ?_, ?_, ?_⟩, ?_⟩ <;> simp [site, roles, names, hpay, Part.Guarded]
    · refine ⟨⟨?_, ?_, ?_, ?_⟩, ?_⟩ <;> simp [site, Part.Guarded]
    · refine ⟨⟨?_, ?_, ?_, ?_⟩, ?_⟩ <;> simp [site, roles, names, hpay, Part.Guarded]
      intro x hx
      simp only [payload, Ty.print]
      split <;> decide
    · refine ⟨⟨?_, ?_, ?_, ?_⟩, ?_⟩ <;> simp [site, Part.Guarded]
  · refine ⟨⟨[1, 0], fun i => textOf 0 i ⟨[], some 0⟩, ?_, rfl, ?_⟩, ?_, ⟨[(0, ['S']), (0, ['M'])], fun _ b => group b, ?_, ?_, rfl, ?_⟩⟩
    · exact List.Perm.swap 0 1 []
    · intro i hi
      have : i = 0 ∨ i = 1 := hx i hi
      rcases this with rfl | rfl
      · exact written (hl 0 hi) (by decide +kernel) (by decide +kernel) 0
      · exact written (hl 1 hi) (by decide +kernel) (by decide +kernel) 0
    · intro s hs x hxl hne b hb
      rw [List.mem_singleton] at hs
      subst hs
      have : x = 0 ∨ x = 1 := hx x hxl
      simp only [site, List.mem_cons, List.not_mem_nil, or_false] at hb
      rcases this with rfl | rfl
      · rcases hb with rfl | rfl
        · exact written (hl 0 hxl) (by decide +kernel) (by decide +kernel) 2
        · exact written (hl 0 hxl) (by decide +kernel) (by decide +kernel) 2
      · exact absurd rfl hne
    · decide
    · intro c b
      constructor
      · intro h
        simp only [List.mem_cons, Prod.mk.injEq, List.not_mem_nil, or_false] at h
        rcases h with ⟨rfl, rfl⟩ | ⟨rfl, rfl⟩ <;> exact ⟨site, rfl, by simp [site]⟩
      · rintro ⟨s, hs, hb⟩
        obtain ⟨rfl, rfl⟩ := h0 c s hs
        simp only [site, List.mem_cons, List.not_mem_nil, or_false] at hb
        rcases hb with rfl | rfl <;> simp
    · intro c s hs b hb
      obtain ⟨rfl, rfl⟩ := h0 c s hs
      refine ⟨List.Perm.refl _, ?_⟩
      simp only [site, List.mem_cons, List.not_mem_nil, or_false] at hb
      rcases hb with rfl | rfl
      · exact written (hl 1 (by decide)) (by decide +kernel) (by decide +kernel) 0
      · exact written (hl 1 (by decide)) (by decide +kernel) (by decide +kernel) 0

end Verif.Prop
