import Verif.Model.CheckClean
import Verif.Spec.TypeName
import Verif.Proof.NuscrText
import Verif.Proof.CheckGraph

/-! # The cleaning of type names -/
namespace Verif.Check
open Verif.Spec Verif.NuscrText Verif.NuscrTextSpec

/-! ## Replacement -/

theorem replaceFrom_none {pat : Str} (new : Str) : ∀ (t : Str), ¬ pat <:+: t → replaceFrom pat new 0 t = t
  | [], _ => by simp [replaceFrom]
  | c :: t, h => by
    rw [replaceFrom, if_neg, replaceFrom_none new t]
    · exact fun h' => h (h'.trans (List.infix_cons (List.infix_refl t)))
    · intro h'
      exact h (List.isPrefixOf_iff_prefix.mp h').isInfix

theorem prefix_before {pat a b : Str} {sep : Char} (hs : sep ∉ pat) : pat <+: a ++ sep :: b ↔ pat <+: a := by
  constructor
  · rintro ⟨t, ht⟩
    induction pat generalizing a with
    | nil => exact List.nil_prefix
    | cons p pat ih =>
      cases a with
      | nil =>
        simp only [List.nil_append, List.cons_append, List.cons.injEq] at ht
        exact absurd (by rw [← ht.1]; exact List.mem_cons_self) hs
      | cons c a =>
        simp only [List.cons_append, List.cons.injEq] at ht
        obtain ⟨u, hu⟩ := ih (fun h => hs (List.mem_cons_of_mem _ h)) ht.2
        exact ⟨u, by rw [ht.1, List.cons_append, hu]⟩
  · exact fun h => h.trans (List.prefix_append _ _)

theorem replaceFrom_sep {pat : Str} (new : Str) {sep : Char} (hp : pat ≠ []) (hs : sep ∉ pat) (b : Str) : ∀ (a : Str) (skip : Nat),
    skip ≤ a.length → replaceFrom pat new skip (a ++ sep :: b) = replaceFrom pat new skip a ++ sep :: replaceFrom pat new 0 b
  | [], skip, h => by
    obtain rfl : skip = 0 := by simpa using h
    simp only [List.nil_append, replaceFrom]
    rw [if_neg]
    intro h'
    have := (prefix_before (a := []) hs).mp (List.isPrefixOf_iff_prefix.mp h')
    exact hp (List.prefix_nil.mp this)
  | c :: a, 0, h => by
    have key : pat.isPrefixOf (c :: a ++ sep :: b) = pat.isPrefixOf (c :: a) := by
      rw [Bool.eq_iff_iff, List.isPrefixOf_iff_prefix, List.isPrefixOf_iff_prefix]
      exact prefix_before hs
    simp only [List.cons_append] at key ⊢
    simp only [replaceFrom, key]
    split
    · rename_i hpre
      have hlen := (List.isPrefixOf_iff_prefix.mp hpre).length_le
      rw [replaceFrom_sep new hp hs b a _ (by simp only [List.length_cons] at hlen; omega)]
      simp
    · rw [replaceFrom_sep new hp hs b a 0 (Nat.zero_le _)]
      simp
  | c :: a, skip + 1, h => by
    simp only [List.cons_append, replaceFrom]
    exact replaceFrom_sep new hp hs b a skip (by simpa using h)

theorem replaceFrom_skip (pat new : Str) : ∀ (u x : Str), replaceFrom pat new u.length (u ++ x) = replaceFrom pat new 0 x
  | [], _ => rfl
  | c :: u, x => by
    simp only [List.length_cons, List.cons_append, replaceFrom]
    exact replaceFrom_skip pat new u x

theorem replaceAll_prefix {pat : Str} (new : Str) (hp : pat ≠ []) (x : Str) (hx : ¬ pat <:+: x) :
    replaceAll pat new (pat ++ x) = new ++ x := by
  unfold replaceAll
  cases pat with
  | nil => exact absurd rfl hp
  | cons c pat =>
    rw [List.cons_append, replaceFrom, if_pos]
    · simp only [List.length_cons, Nat.add_sub_cancel]
      rw [replaceFrom_skip, replaceFrom_none new x hx]
    · rw [List.isPrefixOf_iff_prefix]
      exact ⟨x, rfl⟩

theorem infix_mem {pat t : Str} (h : pat <:+: t) {c : Char} (hc : c ∈ pat) : c ∈ t := h.subset hc

/-! ## Texts as tokens, each followed by a separator -/

abbrev Cells := List (Str × Char)

def flat (l : Cells) : Str := l.flatMap fun x => x.1 ++ [x.2]

theorem flat_cons (x : Str × Char) (l : Cells) : flat (x :: l) = x.1 ++ x.2 :: flat l := by simp [flat]
theorem flat_append (l m : Cells) : flat (l ++ m) = flat l ++ flat m := by simp [flat]

theorem replaceAll_flat {pat : Str} (new : Str) (hp : pat ≠ []) : ∀ (l : Cells), (∀ x ∈ l, x.2 ∉ pat) →
    replaceAll pat new (flat l) = flat (l.map fun x => (replaceAll pat new x.1, x.2))
  | [], _ => by simp [flat, replaceAll, replaceFrom]
  | x :: l, h => by
    have ih := replaceAll_flat new hp l fun y hy => h y (List.mem_cons_of_mem _ hy)
    unfold replaceAll at ih ⊢
    rw [flat_cons, replaceFrom_sep new hp (h x List.mem_cons_self) _ _ _ (Nat.zero_le _), ih, List.map_cons, flat_cons]

mutual
  def cellsOf (f : List Str → Str → Str) : PTy → Char → Cells
    | .mk p n [], c => [(f p n, c)]
    | .mk p n (a :: as), c => (f p n, '<') :: (argCells f (a :: as) ++ [([], c)])
  def argCells (f : List Str → Str → Str) : List PTy → Cells
    | [] => []
    | a :: as => cellsOf f a (if as.isEmpty then '>' else ',') ++ ((if as.isEmpty then [] else [([], ' ')]) ++ argCells f as)
end

mutual
  theorem flat_cells : ∀ (q : PTy) (c : Char), flat (cellsOf token q c) = q.print ++ [c]
    | .mk p n [], c => by simp [cellsOf, PTy.print, flat]
    | .mk p n (a :: as), c => by
      rw [cellsOf, flat_cons, flat_append, flat_args (a :: as) (by simp)]
      simp [PTy.print, flat]
  theorem flat_args : ∀ (as : List PTy), as ≠ [] → flat (argCells token as) =
      (match as with | [] => [] | a :: as => a.print ++ printRest as) ++ ['>']
    | [], h => absurd rfl h
    | a :: as, _ => by
      cases as with
      | nil => simp [argCells, flat_cells a, printRest]
      | cons b bs =>
        rw [argCells, flat_append, flat_append, flat_cells a, flat_args (b :: bs) (by simp)]
        simp [printRest, flat]
end

mutual
  theorem cells_map {h : Str → Str} (h0 : h [] = []) (f : List Str → Str → Str) : ∀ (q : PTy) (c : Char),
      (cellsOf f q c).map (fun x => (h x.1, x.2)) = cellsOf (fun p n => h (f p n)) q c
    | .mk p n [], c => by simp [cellsOf]
    | .mk p n (a :: as), c => by
      simp only [cellsOf, List.map_cons, List.map_append, args_map h0 f (a :: as), List.map_nil, h0]
  theorem args_map {h : Str → Str} (h0 : h [] = []) (f : List Str → Str → Str) : ∀ (as : List PTy),
      (argCells f as).map (fun x => (h x.1, x.2)) = argCells (fun p n => h (f p n)) as
    | [] => by simp [argCells]
    | a :: as => by
      simp only [argCells, List.map_append, cells_map h0 f a, args_map h0 f as]
      split <;> simp [h0]
end

mutual
  theorem cells_congr {f g : List Str → Str → Str} : ∀ (q : PTy) (c : Char), (∀ x ∈ q.nodes, f x.1 x.2 = g x.1 x.2) →
      cellsOf f q c = cellsOf g q c
    | .mk p n [], c, h => by
      have := h (p, n) (by simp [PTy.nodes])
      simp only at this
      simp [cellsOf, this]
    | .mk p n (a :: as), c, h => by
      have := h (p, n) (by simp [PTy.nodes])
      simp only at this
      simp only [cellsOf, this]
      rw [args_congr (a :: as) fun x hx => h x (by rw [PTy.nodes]; exact List.mem_cons_of_mem _ hx)]
  theorem args_congr {f g : List Str → Str → Str} : ∀ (as : List PTy), (∀ x ∈ nodesAll as, f x.1 x.2 = g x.1 x.2) →
      argCells f as = argCells g as
    | [], _ => by simp [argCells]
    | a :: as, h => by
      simp only [argCells]
      rw [cells_congr a _ fun x hx => h x (by rw [nodesAll]; exact List.mem_append_left _ hx),
        args_congr as fun x hx => h x (by rw [nodesAll]; exact List.mem_append_right _ hx)]
end

/-- What the cells are. -/
def IsSep (c : Char) : Prop := c = '<' ∨ c = '>' ∨ c = ',' ∨ c = ' '

mutual
  theorem cells_mem {f : List Str → Str → Str} : ∀ (q : PTy) (c : Char), IsSep c → ∀ x ∈ cellsOf f q c,
      IsSep x.2 ∧ (x.1 = [] ∨ ∃ y ∈ q.nodes, x.1 = f y.1 y.2)
    | .mk p n [], c, hc, x, hx => by
      simp only [cellsOf, List.mem_singleton] at hx
      subst hx
      exact ⟨hc, .inr ⟨(p, n), by simp [PTy.nodes], rfl⟩⟩
    | .mk p n (a :: as), c, hc, x, hx => by
      simp only [cellsOf, List.mem_cons, List.mem_append, List.not_mem_nil, or_false] at hx
      rcases hx with rfl | hx | rfl
      · exact ⟨.inl rfl, .inr ⟨(p, n), by simp [PTy.nodes], rfl⟩⟩
      · obtain ⟨h1, h2⟩ := args_mem (a :: as) x hx
        refine ⟨h1, h2.imp_right ?_⟩
        rintro ⟨y, hy, h⟩
        exact ⟨y, by rw [PTy.nodes]; exact List.mem_cons_of_mem _ hy, h⟩
      · exact ⟨hc, .inl rfl⟩
  theorem args_mem {f : List Str → Str → Str} : ∀ (as : List PTy), ∀ x ∈ argCells f as,
      IsSep x.2 ∧ (x.1 = [] ∨ ∃ y ∈ nodesAll as, x.1 = f y.1 y.2)
    | [], x, hx => by simp [argCells] at hx
    | a :: as, x, hx => by
      simp only [argCells, List.mem_append] at hx
      rcases hx with hx | hx | hx
      · obtain ⟨h1, h2⟩ := cells_mem a _ (by split <;> simp [IsSep]) x hx
        refine ⟨h1, h2.imp_right ?_⟩
        rintro ⟨y, hy, h⟩
        exact ⟨y, by rw [nodesAll]; exact List.mem_append_left _ hy, h⟩
      · split at hx
        · simp at hx
        · rw [List.mem_singleton] at hx
          subst hx
          exact ⟨by simp [IsSep], .inl rfl⟩
      · obtain ⟨h1, h2⟩ := args_mem as x hx
        refine ⟨h1, h2.imp_right ?_⟩
        rintro ⟨y, hy, h⟩
        exact ⟨y, by rw [nodesAll]; exact List.mem_append_right _ hy, h⟩
end

/-- Every token is a cell. -/
theorem nodes_append : ∀ (as bs : List PTy), nodesAll (as ++ bs) = nodesAll as ++ nodesAll bs
  | [], _ => by simp [nodesAll]
  | a :: as, bs => by rw [List.cons_append, nodesAll, nodesAll, nodes_append as bs, List.append_assoc]

mutual
  theorem node_cell {f : List Str → Str → Str} : ∀ (q : PTy) (c : Char), ∀ y ∈ q.nodes, ∃ s, (f y.1 y.2, s) ∈ cellsOf f q c
    | .mk p n [], c, y, hy => by
      simp only [PTy.nodes, nodesAll, List.mem_singleton] at hy
      subst hy
      exact ⟨c, by simp [cellsOf]⟩
    | .mk p n (a :: as), c, y, hy => by
      rw [PTy.nodes, List.mem_cons] at hy
      rcases hy with rfl | hy
      · exact ⟨'<', by simp [cellsOf]⟩
      · obtain ⟨s, hs⟩ := node_arg (a :: as) y hy
        exact ⟨s, by rw [cellsOf]; exact List.mem_cons_of_mem _ (List.mem_append_left _ hs)⟩
  theorem node_arg {f : List Str → Str → Str} : ∀ (as : List PTy), ∀ y ∈ nodesAll as, ∃ s, (f y.1 y.2, s) ∈ argCells f as
    | [], y, hy => by simp [nodesAll] at hy
    | a :: as, y, hy => by
      rw [nodesAll, List.mem_append] at hy
      rcases hy with hy | hy
      · obtain ⟨s, hs⟩ := node_cell a (if as.isEmpty then '>' else ',') y hy
        exact ⟨s, by rw [argCells]; exact List.mem_append_left _ hs⟩
      · obtain ⟨s, hs⟩ := node_arg as y hy
        exact ⟨s, by rw [argCells]; exact List.mem_append_right _ (List.mem_append_right _ hs)⟩
end

/-! ## The expressions -/

/-- Nothing of the language of `r` within a token: go on after its separator. -/
theorem search_skip {r : Rx} {p : Char → Prop} (hr : ∀ s, NuscrTextSpec.Describes cleanClasses r s → s ≠ [] ∧ ∀ c ∈ s, p c) {sep : Char}
    (hsep : ¬ p sep) (t : Str) : ∀ (tok : Str), (∀ s, s <:+: tok → ¬ NuscrTextSpec.Describes cleanClasses r s) →
    search cleanClasses r (tok ++ sep :: t) = search cleanClasses r t
  | [], _ => by
    rw [List.nil_append, search]
    split
    · rename_i x hx
      obtain ⟨s, t', _, e, hd, _⟩ := run_sound _ _ _ _ _ _ hx
      obtain ⟨h1, h2⟩ := hr s hd
      cases s with
      | nil => exact absurd rfl h1
      | cons a s =>
        simp only [List.cons_append, List.cons.injEq] at e
        exact absurd (h2 a List.mem_cons_self) (e.1 ▸ hsep)
    · rfl
  | c :: tok, h => by
    rw [List.cons_append, search]
    split
    · rename_i x hx
      obtain ⟨s, t', _, e, hd, _⟩ := run_sound _ _ _ _ _ _ hx
      obtain ⟨h1, h2⟩ := hr s hd
      have : s <+: c :: tok := (prefix_before (b := t) (fun hm => hsep (h2 sep hm))).mp ⟨t', e.symm⟩
      exact absurd hd (h s this.isInfix)
    · exact search_skip hr hsep t tok fun s hs => h s (hs.trans (List.infix_cons (List.infix_refl tok)))

theorem isWs_of_not (c : Char) : cleanClasses.word c = true ↔ c ≠ '<' ∧ c ≠ ',' ∧ c ≠ '>' ∧ isWs c = false := by
  simp [cleanClasses, and_assoc]

theorem sep_not_word {c : Char} (h : IsSep c) : cleanClasses.word c = false := by
  rcases h with rfl | rfl | rfl | rfl <;> decide

theorem plain_word {c : Char} (h : Plain c) : cleanClasses.word c = true :=
  (isWs_of_not c).mpr ⟨h.1, h.2.2.1, h.2.1, h.2.2.2.2⟩

theorem star_word {x : Cls} {s : Str} (h : NuscrTextSpec.Describes cleanClasses (.star (.cls x)) s) :
    ∀ c ∈ s, x.has cleanClasses c = true := by
  obtain ⟨l, rfl, hl⟩ := h
  intro c hc
  obtain ⟨u, hu, hcu⟩ := List.mem_flatten.mp hc
  obtain ⟨a, rfl, ha⟩ := hl u hu
  rw [List.mem_singleton] at hcu
  exact hcu ▸ ha

theorem plus_word {x : Cls} {s : Str} (h : NuscrTextSpec.Describes cleanClasses (plus (.cls x)) s) :
    s ≠ [] ∧ ∀ c ∈ s, x.has cleanClasses c = true := by
  obtain ⟨u, v, rfl, ⟨a, rfl, ha⟩, hv⟩ := h
  refine ⟨by simp, ?_⟩
  intro c hc
  rcases List.mem_append.mp hc with hc | hc
  · rw [List.mem_singleton] at hc; exact hc ▸ ha
  · exact star_word hv c hc

theorem describes_lit {C : Classes} : ∀ (s t : Str), NuscrTextSpec.Describes C (lit s) t ↔ t = s
  | [], t => by simp [lit, seqs, NuscrTextSpec.Describes]
  | c :: s, t => by
    have ih := describes_lit (C := C) s
    simp only [lit, List.map_cons, seqs, NuscrTextSpec.Describes] at ih ⊢
    constructor
    · rintro ⟨u, v, rfl, ⟨a, rfl, ha⟩, hv⟩
      rw [(ih v).mp hv]
      simp only [Cls.has, beq_iff_eq] at ha
      simp [ha]
    · rintro rfl
      exact ⟨[c], s, rfl, ⟨c, rfl, by simp [Cls.has]⟩, (ih s).mpr rfl⟩

theorem describes_path {s : Str} (h : NuscrTextSpec.Describes cleanClasses rxPath s) :
    ':' ∈ s ∧ ∀ c ∈ s, cleanClasses.word c = true := by
  obtain ⟨u, v, rfl, hu, u', v', rfl, hu', u'', v'', rfl, hu'', hv⟩ := h
  simp only [seqs, NuscrTextSpec.Describes] at hv
  subst hv
  have h1 := plus_word hu
  rw [(describes_lit _ _).mp hu']
  have h2 := plus_word hu''
  refine ⟨by simp, ?_⟩
  intro c hc
  simp only [List.append_nil, List.mem_append, List.mem_cons, List.not_mem_nil, or_false] at hc
  rcases hc with hc | (rfl | rfl) | hc
  · exact h1.2 c hc
  · decide
  · decide
  · exact h2.2 c hc

theorem describes_name {s : Str} (h : NuscrTextSpec.Describes cleanClasses rxName s) :
    ['N', 'a', 'm', 'e'] <+: s ∧ ∀ c ∈ s, cleanClasses.digit c = true := by
  obtain ⟨u, v, rfl, hu, u', v', rfl, hu', hv⟩ := h
  simp only [seqs, NuscrTextSpec.Describes] at hv
  subst hv
  rw [(describes_lit _ _).mp hu]
  have h2 := plus_word hu'
  refine ⟨⟨u' ++ [], by simp⟩, ?_⟩
  intro c hc
  simp only [List.append_nil, List.mem_append, List.mem_cons, List.not_mem_nil, or_false] at hc
  rcases hc with (rfl | rfl | rfl | rfl) | hc
  · decide
  · decide
  · decide
  · decide
  · exact h2.2 c hc

/-- Greedy repetition: where the rest succeeds later, that is the result. -/
theorem iter_later (x : Cls) (k : Cont) (c : Caps) (res) (a : Char) (t : Str) (n : Nat) (ha : x.has cleanClasses a = true)
    (h : iter ((Rx.cls x).run cleanClasses) k n t c = some res) :
    iter ((Rx.cls x).run cleanClasses) k (n + 1) (a :: t) c = some res := by
  rw [iter]
  simp only [Rx.run] at h ⊢
  simp only [ha, if_true, List.length_cons, Nat.lt_succ_self, h]

theorem iter_now (x : Cls) (k : Cont) (c : Caps) (a : Char) (t : Str) (n : Nat)
    (h : iter ((Rx.cls x).run cleanClasses) k n t c = none) :
    iter ((Rx.cls x).run cleanClasses) k (n + 1) (a :: t) c = k (a :: t) c := by
  rw [iter]
  simp only [Rx.run] at h ⊢
  simp only [List.length_cons, Nat.lt_succ_self, if_true, h]
  split
  · rename_i r hr
    split at hr <;> cases hr
  · rfl

/-- The rest fails everywhere. -/
theorem iter_fail (x : Cls) (k : Cont) (c : Caps) (v : Str) (hv : Ends (x.has cleanClasses) v) : ∀ (u : Str) (n : Nat),
    (∀ a b, u = a ++ b → k (b ++ v) c = none) → iter ((Rx.cls x).run cleanClasses) k n (u ++ v) c = none
  | [], n, h => by
    have h0 := h [] [] rfl
    cases n with
    | zero => exact h0
    | succ n =>
      cases v with
      | nil => exact h0
      | cons b v =>
        have hb : x.has cleanClasses b = false := hv
        rw [iter]
        simp only [Rx.run, List.nil_append, hb, Bool.false_eq_true, if_false]
        exact h0
  | a :: u, n, h => by
    have h0 := h [] (a :: u) rfl
    cases n with
    | zero => exact h0
    | succ n =>
      rw [List.cons_append, iter_now]
      · exact h0
      · exact iter_fail x k c v hv u n fun b d e => h (a :: b) d (by rw [e]; rfl)

theorem iter_word (x : Cls) (k : Cont) (c : Caps) (res) (v : Str) (m : Nat)
    (h : iter ((Rx.cls x).run cleanClasses) k m v c = some res) : ∀ (u : Str), (∀ a ∈ u, x.has cleanClasses a = true) →
    iter ((Rx.cls x).run cleanClasses) k (u.length + m) (u ++ v) c = some res
  | [], _ => by simpa using h
  | a :: u, hu => by
    rw [List.length_cons, Nat.add_right_comm, List.cons_append]
    exact iter_later x k c res a (u ++ v) _ (hu a List.mem_cons_self)
      (iter_word x k c res v m h u fun b hb => hu b (List.mem_cons_of_mem _ hb))

theorem lit_fail {k : Cont} {c : Caps} {s t : Str} (h : ¬ s <+: t) : (lit s).run cleanClasses k t c = none := by
  cases he : (lit s).run cleanClasses k t c with
  | none => rfl
  | some r =>
    obtain ⟨u, v, _, e, hd, _⟩ := run_sound _ _ _ _ _ _ he
    rw [(describes_lit _ _).mp hd] at e
    exact absurd ⟨v, e.symm⟩ h

theorem run_path {A n rest : Str} (hA : A ≠ []) (hAw : ∀ c ∈ A, cleanClasses.word c = true) (hn : n ≠ [])
    (hnw : ∀ c ∈ n, cleanClasses.word c = true) (hnc : ':' ∉ n) (hr : Ends cleanClasses.word rest) :
    rxPath.run cleanClasses done (A ++ [':', ':'] ++ n ++ rest) [] =
      some (rest, [(.choice, A ++ [':', ':'] ++ n), (.message, n), (.name, A)]) := by
  obtain ⟨a, A, rfl⟩ : ∃ a A', A = a :: A' := by
    cases A with
    | nil => exact absurd rfl hA
    | cons a A => exact ⟨a, A, rfl⟩
  unfold rxPath
  rw [Rx.run]
  simp only [seqs, Rx.run, plus, Cls.has]
  rw [show a :: A ++ [':', ':'] ++ n ++ rest = a :: (A ++ ([':', ':'] ++ (n ++ rest))) by simp]
  simp only [hAw a List.mem_cons_self, if_true]
  -- after the star
  generalize hk : (fun (t' : Str) (c' : Caps) => (lit [':', ':']).run cleanClasses _ t' _) = k
  have hk' : ∀ t' c', k t' c' = (lit [':', ':']).run cleanClasses (fun t c =>
      (Rx.cap .message (plus (.cls .word))).run cleanClasses (fun t' c' => done t' ((.choice,
        (a :: (A ++ ([':', ':'] ++ (n ++ rest)))).take ((a :: (A ++ ([':', ':'] ++ (n ++ rest)))).length - t'.length)) :: c')) t c) t'
      ((.name, (a :: (A ++ ([':', ':'] ++ (n ++ rest)))).take ((a :: (A ++ ([':', ':'] ++ (n ++ rest)))).length - t'.length)) :: c') := by
    intro t' c'
    rw [← hk]
    rfl
  have hcolon : cleanClasses.word ':' = true := by decide
  -- the rest fails within `n`
  have hfail : ∀ u b : Str, n = u ++ b → ∀ c, k (b ++ rest) c = none := by
    intro u b e c
    rw [hk']
    apply lit_fail
    rintro ⟨z, hz⟩
    have : ':' ∈ b ∨ ∃ r, rest = ':' :: r := by
      cases b with
      | nil =>
        right
        exact ⟨_, hz.symm⟩
      | cons x b =>
        simp only [List.cons_append, List.cons.injEq] at hz
        exact .inl (by rw [← hz.1]; exact List.mem_cons_self)
    rcases this with h | ⟨r, h⟩
    · exact hnc (by rw [e]; exact List.mem_append_right _ h)
    · rw [h] at hr
      have hr : cleanClasses.word ':' = false := hr
      rw [hcolon] at hr
      cases hr
  have hres : k ([':', ':'] ++ (n ++ rest)) [] =
      some (rest, [(.choice, a :: A ++ [':', ':'] ++ n), (.message, n), (.name, a :: A)]) := by
    rw [hk']
    apply run_lit
    apply run_cap_word _ _ _ _ _ _ _ ⟨hn, hnw⟩ hr
    simp only [done, Option.some.injEq, Prod.mk.injEq, List.cons.injEq, and_true, true_and]
    refine ⟨?_, ?_⟩
    · rw [show a :: (A ++ ([':', ':'] ++ (n ++ rest))) = (a :: A ++ [':', ':'] ++ n) ++ rest by simp]
      rw [List.length_append, Nat.add_sub_cancel, List.take_left]
    · rw [show a :: (A ++ ([':', ':'] ++ (n ++ rest))) = (a :: A) ++ ([':', ':'] ++ (n ++ rest)) by simp]
      rw [List.length_append, Nat.add_sub_cancel, List.take_left]
  have hstar : ∀ m, iter ((Rx.cls .word).run cleanClasses) k (2 + m) ([':', ':'] ++ (n ++ rest)) [] =
      some (rest, [(.choice, a :: A ++ [':', ':'] ++ n), (.message, n), (.name, a :: A)]) := by
    intro m
    have h1 : iter ((Rx.cls .word).run cleanClasses) k m (n ++ rest) [] = none := by
      apply iter_fail .word k [] rest _ n m fun u b e => hfail u b e []
      cases rest with
      | nil => trivial
      | cons b r => exact hr
    have h2 : k (':' :: (n ++ rest)) [] = none := by
      rw [hk']
      apply lit_fail
      rintro ⟨z, hz⟩
      cases n with
      | nil => exact absurd rfl hn
      | cons b n =>
        simp only [List.cons_append, List.nil_append, List.cons.injEq, true_and] at hz
        exact hnc (by rw [← hz.1]; exact List.mem_cons_self)
    have h3 : iter ((Rx.cls .word).run cleanClasses) k (m + 1) (':' :: (n ++ rest)) [] = none := by
      rw [iter_now _ _ _ _ _ _ h1, h2]
    have h4 := iter_now .word k [] ':' (':' :: (n ++ rest)) (m + 1) h3
    rw [show 2 + m = m + 1 + 1 by omega]
    exact h4.trans hres
  have := iter_word .word k [] _ _ _ (hstar (n ++ rest).length) A fun b hb => hAw b (List.mem_cons_of_mem _ hb)
  rw [← this]
  congr 1
  simp
  omega

/-! ## The matches of the path expression -/

/-- The part after the last colon. -/
def nameOf (t : Str) : Str := (t.reverse.takeWhile (· != ':')).reverse

theorem nameOf_eq {A n : Str} (hn : ':' ∉ n) : nameOf (A ++ [':', ':'] ++ n) = n := by
  have h : (A ++ [':', ':'] ++ n).reverse = n.reverse ++ ':' :: (':' :: A.reverse) := by simp
  unfold nameOf
  rw [h, List.takeWhile_append_of_pos]
  · simp
  · intro a ha
    have : a ∈ n := List.mem_reverse.mp ha
    simp only [bne_iff_ne, ne_eq]
    rintro rfl
    exact hn this

/-- A token with at most one path. -/
def Good (t : Str) : Prop := (∀ c ∈ t, cleanClasses.word c = true) ∧
  (':' ∈ t → ∃ A n : Str, A ≠ [] ∧ n ≠ [] ∧ ':' ∉ n ∧ t = A ++ [':', ':'] ++ n)

def capOf (t : Str) : Option (Str × Str) := if ':' ∈ t then some (t, nameOf t) else none

theorem path_hr : ∀ s, NuscrTextSpec.Describes cleanClasses rxPath s → s ≠ [] ∧ ∀ c ∈ s, cleanClasses.word c = true := by
  intro s hs
  obtain ⟨h1, h2⟩ := describes_path hs
  refine ⟨?_, h2⟩
  rintro rfl
  simp at h1

theorem captures_cells : ∀ (l : Cells) (fuel : Nat), (∀ x ∈ l, Good x.1 ∧ cleanClasses.word x.2 = false) → l.length < fuel →
    (searchAll cleanClasses rxPath fuel (flat l)).map (fun c => (c.get .choice, c.get .message)) = l.filterMap fun x => capOf x.1
  | [], fuel, _, hf => by
    obtain ⟨f, rfl⟩ : ∃ f, fuel = f + 1 := ⟨fuel - 1, by simp at hf; omega⟩
    have : search cleanClasses rxPath [] = none := by
      rw [search_none]
      intro a s b e hd
      have : s = [] := by
        have := congrArg List.length e
        simp at this
        exact List.eq_nil_of_length_eq_zero (by omega)
      exact (path_hr s hd).1 this
    simp [flat, searchAll, this]
  | x :: l, fuel, h, hf => by
    obtain ⟨f, rfl⟩ : ∃ f, fuel = f + 1 := ⟨fuel - 1, by simp at hf; omega⟩
    obtain ⟨hg, hsep⟩ := h x List.mem_cons_self
    have hsep' : ¬ cleanClasses.word x.2 = true := by simp [hsep]
    have hl := fun y hy => h y (List.mem_cons_of_mem _ hy)
    rw [flat_cons, List.filterMap_cons]
    by_cases hc : ':' ∈ x.1
    · obtain ⟨A, n, hA, hn, hnc, e⟩ := hg.2 hc
      have hrun := run_path (rest := x.2 :: flat l) hA (fun c hm => hg.1 c (by rw [e]; simp [hm])) hn
        (fun c hm => hg.1 c (by rw [e]; simp [hm])) hnc hsep
      rw [← e] at hrun
      have hcap : capOf x.1 = some (x.1, n) := by
        unfold capOf
        rw [if_pos hc]
        congr 2
        rw [e, nameOf_eq hnc]
      have hs : search cleanClasses rxPath (x.1 ++ x.2 :: flat l) =
          some (x.2 :: flat l, [(.choice, x.1), (.message, n), (.name, A)]) := by
        cases hx : x.1 with
        | nil => rw [hx] at hc; simp at hc
        | cons a t =>
          rw [hx, List.cons_append] at hrun
          rw [List.cons_append, search, hrun]
      rw [searchAll, hs]
      simp only [List.map_cons, hcap]
      have hn' : searchAll cleanClasses rxPath f (x.2 :: flat l) = searchAll cleanClasses rxPath f (flat l) := by
        cases f with
        | zero => rfl
        | succ f =>
          have := search_skip path_hr hsep' (flat l) [] (by
            intro s hs hd
            exact (path_hr s hd).1 (List.infix_nil.mp hs))
          rw [List.nil_append] at this
          rw [searchAll, searchAll, this]
      rw [hn', captures_cells l f hl (by simp at hf; omega)]
      rfl
    · have hcap : capOf x.1 = none := if_neg hc
      have hs : search cleanClasses rxPath (x.1 ++ x.2 :: flat l) = search cleanClasses rxPath (flat l) :=
        search_skip path_hr hsep' (flat l) x.1 fun s hs hd => hc (hs.subset (describes_path hd).1)
      rw [hcap]
      have : searchAll cleanClasses rxPath (f + 1) (x.1 ++ x.2 :: flat l) = searchAll cleanClasses rxPath (f + 1) (flat l) := by
        rw [searchAll, searchAll, hs]
      rw [this]
      exact captures_cells l (f + 1) hl (by simp at hf; omega)

/-! ## All replacements, on one token -/

def replaceEach (ps : List (Str × Str)) (t : Str) : Str := ps.foldl (fun t p => replaceAll p.1 p.2 t) t

theorem replaceEach_nil (ps : List (Str × Str)) : replaceEach ps [] = [] := by
  induction ps with
  | nil => rfl
  | cons p ps ih => simpa [replaceEach, replaceAll, replaceFrom] using ih

theorem replaceEach_flat : ∀ (ps : List (Str × Str)) (l : Cells), (∀ p ∈ ps, p.1 ≠ [] ∧ ∀ x ∈ l, x.2 ∉ p.1) →
    replaceEach ps (flat l) = flat (l.map fun x => (replaceEach ps x.1, x.2))
  | [], l, _ => by simp [replaceEach]
  | p :: ps, l, h => by
    obtain ⟨h1, h2⟩ := h p List.mem_cons_self
    have ih := replaceEach_flat ps (l.map fun x => (replaceAll p.1 p.2 x.1, x.2)) fun q hq => by
      obtain ⟨h3, h4⟩ := h q (List.mem_cons_of_mem _ hq)
      refine ⟨h3, ?_⟩
      intro x hx
      obtain ⟨y, hy, rfl⟩ := List.mem_map.mp hx
      exact h4 y hy
    unfold replaceEach at ih ⊢
    rw [List.foldl_cons, replaceAll_flat p.2 h1 l h2, ih, List.map_map]
    rfl

theorem token_split : ∀ {p : List Str} (n : Str), p ≠ [] → (∀ s ∈ p, s ≠ []) →
    ∃ A, A ≠ [] ∧ token p n = A ++ [':', ':'] ++ n
  | [], _, h, _ => absurd rfl h
  | [s], n, _, hs => ⟨s, hs s (by simp), rfl⟩
  | s :: s' :: p, n, _, hs => by
    obtain ⟨A, _, h2⟩ := token_split (p := s' :: p) n (by simp) fun u hu => hs u (List.mem_cons_of_mem _ hu)
    exact ⟨s ++ [':', ':'] ++ A, by simp, by rw [token, h2]; simp⟩

theorem token_mem {c : Char} : ∀ {p : List Str} {n : Str}, c ∈ token p n → c = ':' ∨ c ∈ n ∨ ∃ s ∈ p, c ∈ s
  | [], n, h => .inr (.inl h)
  | s :: p, n, h => by
    simp only [token, List.mem_append, List.mem_cons, List.not_mem_nil, or_false] at h
    rcases h with (h | h | h) | h
    · exact .inr (.inr ⟨s, List.mem_cons_self, h⟩)
    · exact .inl h
    · exact .inl h
    · rcases token_mem h with h | h | ⟨u, hu, h⟩
      · exact .inl h
      · exact .inr (.inl h)
      · exact .inr (.inr ⟨u, List.mem_cons_of_mem _ hu, h⟩)

theorem token_ne {p : List Str} {n : Str} (hn : n ≠ []) : token p n ≠ [] := by
  cases p with
  | nil => exact hn
  | cons s p => simp [token]

theorem colon_plain : Plain ':' := by
  refine ⟨?_, ?_, ?_, ?_, ?_⟩ <;> decide

section
variable {nodes : List (List Str × Str)}

theorem token_plain (hW : WellNamed nodes) {y} (hy : y ∈ nodes) : ∀ c ∈ token y.1 y.2, Plain c := by
  intro c hc
  obtain ⟨h1, h2⟩ := hW.ident y hy
  rcases token_mem hc with rfl | h | ⟨s, hs, h⟩
  · exact colon_plain
  · exact (h1.2 c h).1
  · exact ((h2 s hs).2 c h).1

theorem name_colon (hW : WellNamed nodes) {y} (hy : y ∈ nodes) : ':' ∉ y.2 :=
  fun h => ((hW.ident y hy).1.2 _ h).2 rfl

theorem token_form (hW : WellNamed nodes) {y} (hy : y ∈ nodes) (hp : y.1 ≠ []) :
    ∃ A, A ≠ [] ∧ token y.1 y.2 = A ++ [':', ':'] ++ y.2 :=
  token_split y.2 hp fun s hs => ((hW.ident y hy).2 s hs).1

theorem token_good (hW : WellNamed nodes) {y} (hy : y ∈ nodes) : Good (token y.1 y.2) := by
  refine ⟨fun c hc => plain_word (token_plain hW hy c hc), fun hc => ?_⟩
  by_cases hp : y.1 = []
  · rw [hp] at hc
    exact absurd hc (name_colon hW hy)
  · obtain ⟨A, hA, e⟩ := token_form hW hy hp
    exact ⟨A, y.2, hA, (hW.ident y hy).1.1, name_colon hW hy, e⟩

/-- What is replaced: a path with its name, or something that is not there. -/
def PairOf (nodes : List (List Str × Str)) (p : Str × Str) : Prop :=
  (∃ x ∈ nodes, x.1 ≠ [] ∧ p = (token x.1 x.2, x.2)) ∨ '&' ∈ p.1

theorem replace_name (hW : WellNamed nodes) {p : Str × Str} (hp : PairOf nodes p) {y} (hy : y ∈ nodes) :
    replaceAll p.1 p.2 y.2 = y.2 := by
  apply replaceFrom_none
  intro hi
  rcases hp with ⟨x, hx, hne, rfl⟩ | h
  · obtain ⟨A, _, e⟩ := token_form hW hx hne
    exact name_colon hW hy (hi.subset (by rw [e]; simp))
  · exact ((hW.ident y hy).1.2 _ (hi.subset h)).1.2.2.2.1 rfl

theorem replace_token (hW : WellNamed nodes) {p : Str × Str} (hp : PairOf nodes p) {y} (hy : y ∈ nodes) :
    (replaceAll p.1 p.2 (token y.1 y.2) = token y.1 y.2 ∧ p.1 ≠ token y.1 y.2) ∨ replaceAll p.1 p.2 (token y.1 y.2) = y.2 := by
  by_cases hi : p.1 <:+: token y.1 y.2
  · right
    rcases hp with ⟨x, hx, hne, rfl⟩ | h
    · simp only at hi ⊢
      obtain ⟨A, hA, e⟩ := token_form hW hx hne
      obtain ⟨u, hu, huc⟩ := hW.apart x hx y hy hne hi
      rw [hu, replaceAll_prefix]
      · have hyne : y.1 ≠ [] := by
          intro h0
          have : ':' ∈ token y.1 y.2 := by rw [hu, e]; simp
          rw [h0] at this
          exact name_colon hW hy this
        obtain ⟨B, _, e'⟩ := token_form hW hy hyne
        have h1 : nameOf (token y.1 y.2) = y.2 := by rw [e', nameOf_eq (name_colon hW hy)]
        have h2 : nameOf (token y.1 y.2) = x.2 ++ u := by
          rw [hu, e, show A ++ [':', ':'] ++ x.2 ++ u = A ++ [':', ':'] ++ (x.2 ++ u) by simp, nameOf_eq]
          simp only [List.mem_append, not_or]
          exact ⟨name_colon hW hx, huc⟩
        rw [← h2, h1]
      · exact token_ne (hW.ident x hx).1.1
      · intro h
        exact huc (h.subset (by rw [e]; simp))
    · exact absurd rfl (token_plain hW hy _ (hi.subset h)).2.2.2.1
  · left
    refine ⟨replaceFrom_none _ _ hi, ?_⟩
    intro h
    exact hi (by rw [h]; exact List.infix_refl _)

theorem replaceEach_name (hW : WellNamed nodes) {y} (hy : y ∈ nodes) : ∀ (ps : List (Str × Str)), (∀ p ∈ ps, PairOf nodes p) →
    replaceEach ps y.2 = y.2
  | [], _ => rfl
  | p :: ps, h => by
    have ih := replaceEach_name hW hy ps fun q hq => h q (List.mem_cons_of_mem _ hq)
    unfold replaceEach at ih ⊢
    rw [List.foldl_cons, replace_name hW (h p List.mem_cons_self) hy, ih]

theorem replaceEach_token (hW : WellNamed nodes) {y} (hy : y ∈ nodes) : ∀ (ps : List (Str × Str)), (∀ p ∈ ps, PairOf nodes p) →
    (replaceEach ps (token y.1 y.2) = token y.1 y.2 ∧ ∀ p ∈ ps, p.1 ≠ token y.1 y.2) ∨ replaceEach ps (token y.1 y.2) = y.2
  | [], _ => .inl ⟨rfl, by simp⟩
  | p :: ps, h => by
    have ih := replaceEach_token hW hy ps fun q hq => h q (List.mem_cons_of_mem _ hq)
    have hn := replaceEach_name hW hy ps fun q hq => h q (List.mem_cons_of_mem _ hq)
    unfold replaceEach at ih hn ⊢
    rw [List.foldl_cons]
    rcases replace_token hW (h p List.mem_cons_self) hy with ⟨h1, h2⟩ | h1
    · rw [h1]
      refine ih.imp_left fun ⟨h3, h4⟩ => ⟨h3, ?_⟩
      intro q hq
      rcases List.mem_cons.mp hq with rfl | hq
      · exact h2
      · exact h4 q hq
    · rw [h1]
      exact .inr hn

end

/-! ## The paths are removed -/

def amps : Nat → Str := fun k => List.replicate k '&'

theorem filter_amp {t : Str} (h : ∀ c ∈ t, c ≠ '&') : t.filter (· != '&') = t := by
  rw [List.filter_eq_self]
  intro c hc
  simpa using h c hc

theorem top_print (k : Nat) (p : List Str) (n : Str) (as : List PTy) (h : as ≠ []) :
    amps k ++ (PTy.mk p n as).print = flat ((amps k ++ token p n, '<') :: argCells token as) := by
  rw [flat_cons, flat_args as h]
  cases as with
  | nil => exact absurd rfl h
  | cons a as => simp [PTy.print]

theorem amp_word : cleanClasses.word '&' = true := by decide

theorem stripPaths_print (k : Nat) {p : List Str} {n : Str} {as : List PTy} (h : as ≠ []) (hW : WellNamed (PTy.mk p n as).nodes) :
    ∃ H, (H = token p n ∨ H = n) ∧ stripPaths (amps k ++ (PTy.mk p n as).print) = flat ((H, '<') :: argCells (fun _ n => n) as) := by
  have hroot : (p, n) ∈ (PTy.mk p n as).nodes := by simp [PTy.nodes]
  have harg : ∀ y ∈ nodesAll as, y ∈ (PTy.mk p n as).nodes := fun y hy => by rw [PTy.nodes]; exact List.mem_cons_of_mem _ hy
  have hcell : ∀ x ∈ argCells token as, IsSep x.2 ∧ (x.1 = [] ∨ ∃ y ∈ nodesAll as, x.1 = token y.1 y.2) := args_mem as
  have hgood : ∀ x ∈ (amps k ++ token p n, '<') :: argCells token as, Good x.1 ∧ cleanClasses.word x.2 = false := by
    intro x hx
    rcases List.mem_cons.mp hx with rfl | hx
    · obtain ⟨h1, h2⟩ := token_good hW hroot
      refine ⟨⟨?_, ?_⟩, sep_not_word (.inl rfl)⟩
      · intro c hc
        rcases List.mem_append.mp hc with hc | hc
        · rw [List.eq_of_mem_replicate hc]
          exact amp_word
        · exact h1 c hc
      · intro hc
        rcases List.mem_append.mp hc with hc | hc
        · exact absurd (List.eq_of_mem_replicate hc) (by decide)
        · obtain ⟨A, m, hA, hm, hmc, e⟩ := h2 hc
          exact ⟨amps k ++ A, m, by simp [hA], hm, hmc, by simp only at e; rw [e]; simp⟩
    · obtain ⟨h1, h2⟩ := hcell x hx
      refine ⟨?_, sep_not_word h1⟩
      rcases h2 with h2 | ⟨y, hy, h2⟩
      · rw [h2]
        exact ⟨by simp, by simp⟩
      · rw [h2]
        exact token_good hW (harg y hy)
  have hcap := captures_cells _ ((amps k ++ (PTy.mk p n as).print).length + 1) hgood (by
    rw [top_print k p n as h]
    have : ∀ l : Cells, l.length ≤ (flat l).length := by
      intro l
      induction l with
      | nil => simp
      | cons x l ih => rw [flat_cons]; simp; omega
    have := this ((amps k ++ token p n, '<') :: argCells token as)
    omega)
  rw [← top_print k p n as h] at hcap
  generalize hps : List.filterMap (fun x : Str × Char => capOf x.1) ((amps k ++ token p n, '<') :: argCells token as) = ps at hcap
  have hpair : ∀ q ∈ ps, PairOf (PTy.mk p n as).nodes q ∧ q.1 ≠ [] ∧ ∀ c, IsSep c → c ∉ q.1 := by
    intro q hq
    rw [← hps] at hq
    obtain ⟨x, hx, hq⟩ := List.mem_filterMap.mp hq
    have hg := hgood x hx
    unfold capOf at hq
    split at hq
    · rename_i hc
      cases hq
      refine ⟨?_, ?_, ?_⟩
      · have tok : ∀ y ∈ (PTy.mk p n as).nodes, x.1 = token y.1 y.2 → PairOf (PTy.mk p n as).nodes (x.1, nameOf x.1) := by
          intro y hy e
          by_cases hy0 : y.1 = []
          · rw [e, hy0] at hc
            exact absurd hc (name_colon hW hy)
          · left
            obtain ⟨A, _, e'⟩ := token_form hW hy hy0
            refine ⟨y, hy, hy0, ?_⟩
            rw [e]
            congr 1
            rw [e', nameOf_eq (name_colon hW hy)]
        rcases List.mem_cons.mp hx with rfl | hx
        · cases k with
          | zero => exact tok (p, n) hroot rfl
          | succ k => exact .inr (by simp [amps, List.replicate_succ])
        · rcases (hcell x hx).2 with h0 | ⟨y, hy, e⟩
          · rw [h0] at hc; simp at hc
          · exact tok y (harg y hy) e
      · intro h0
        simp only at h0
        rw [h0] at hc
        simp at hc
      · intro c hs hm
        have h1 := hg.1.1 c hm
        rw [sep_not_word hs] at h1
        cases h1
    · cases hq
  have hfilter : (amps k ++ (PTy.mk p n as).print).filter (· != '&') = flat ((token p n, '<') :: argCells token as) := by
    rw [show (PTy.mk p n as).print = amps 0 ++ (PTy.mk p n as).print from rfl, top_print 0 p n as h, List.filter_append]
    rw [filter_amp (t := flat _)]
    · have : (amps k).filter (· != '&') = [] := by
        rw [List.filter_eq_nil_iff]
        intro c hc
        rw [List.eq_of_mem_replicate hc]
        decide
      rw [this]
      rfl
    · intro c hc
      obtain ⟨x, hx, hc⟩ := List.mem_flatMap.mp hc
      rcases List.mem_cons.mp hx with rfl | hx
      · simp only [amps, List.replicate_zero, List.nil_append, List.mem_append, List.mem_singleton] at hc
        rcases hc with hc | rfl
        · exact (token_plain hW hroot c hc).2.2.2.1
        · decide
      · obtain ⟨h1, h2⟩ := hcell x hx
        rcases List.mem_append.mp hc with hc | hc
        · rcases h2 with h2 | ⟨y, hy, h2⟩
          · rw [h2] at hc; simp at hc
          · rw [h2] at hc
            exact (token_plain hW (harg y hy) c hc).2.2.2.1
        · rw [List.mem_singleton] at hc
          subst hc
          rcases h1 with h1 | h1 | h1 | h1 <;> rw [h1] <;> decide
  have hstrip : stripPaths (amps k ++ (PTy.mk p n as).print) = replaceEach ps (flat ((token p n, '<') :: argCells token as)) := by
    unfold stripPaths captures replaceEach
    rw [hfilter, ← hcap, List.foldl_map]
  rw [hstrip, replaceEach_flat ps _ fun q hq => ⟨(hpair q hq).2.1, fun x hx => (hpair q hq).2.2 _ (by
    rcases List.mem_cons.mp hx with rfl | hx
    · exact .inl rfl
    · exact (hcell x hx).1)⟩]
  refine ⟨replaceEach ps (token p n), (replaceEach_token hW hroot ps fun q hq => (hpair q hq).1).imp_left And.left, ?_⟩
  rw [List.map_cons, args_map (replaceEach_nil ps)]
  congr 2
  apply args_congr
  intro y hy
  rcases replaceEach_token hW (harg y hy) ps fun q hq => (hpair q hq).1 with ⟨h1, h2⟩ | h1
  · by_cases hy0 : y.1 = []
    · rw [h1, hy0]; rfl
    · exfalso
      obtain ⟨s, hs⟩ := node_arg (f := token) as y hy
      obtain ⟨A, _, e⟩ := token_form hW (harg y hy) hy0
      have hc : ':' ∈ token y.1 y.2 := by rw [e]; simp
      have : (token y.1 y.2, nameOf (token y.1 y.2)) ∈ ps := by
        rw [← hps]
        exact List.mem_filterMap.mpr ⟨_, List.mem_cons_of_mem _ hs, by unfold capOf; rw [if_pos hc]⟩
      exact h2 _ this rfl
  · exact h1

/-! ## The name of the role -/

def initCells (f : List Str → Str → Str) (as : List PTy) : Cells := as.flatMap fun a => cellsOf f a ',' ++ [([], ' ')]

theorem argCells_last (f : List Str → Str → Str) (p : List Str) (n : Str) : ∀ (as : List PTy),
    argCells f (as ++ [.mk p n []]) = initCells f as ++ [(f p n, '>')]
  | [] => by simp [argCells, cellsOf, initCells]
  | a :: as => by
    rw [List.cons_append, argCells, argCells_last f p n as]
    simp [initCells]

theorem initCells_mem {f : List Str → Str → Str} {as : List PTy} : ∀ x ∈ initCells f as,
    IsSep x.2 ∧ (x.1 = [] ∨ ∃ y ∈ nodesAll as, x.1 = f y.1 y.2) := by
  induction as with
  | nil => simp [initCells]
  | cons a as ih =>
    intro x hx
    simp only [initCells, List.flatMap_cons, List.mem_append, List.mem_singleton] at hx
    rcases hx with (hx | rfl) | hx
    · obtain ⟨h1, h2⟩ := cells_mem a _ (by simp [IsSep]) x hx
      refine ⟨h1, h2.imp_right ?_⟩
      rintro ⟨y, hy, h⟩
      exact ⟨y, by rw [nodesAll]; exact List.mem_append_left _ hy, h⟩
    · exact ⟨by simp [IsSep], .inl rfl⟩
    · obtain ⟨h1, h2⟩ := ih x hx
      refine ⟨h1, h2.imp_right ?_⟩
      rintro ⟨y, hy, h⟩
      exact ⟨y, by rw [nodesAll]; exact List.mem_append_right _ hy, h⟩

theorem name_hr : ∀ s, NuscrTextSpec.Describes cleanClasses rxName s → s ≠ [] ∧ ∀ c ∈ s, cleanClasses.digit c = true := by
  intro s hs
  obtain ⟨⟨t, h1⟩, h2⟩ := describes_name hs
  refine ⟨?_, h2⟩
  rintro rfl
  simp at h1

theorem sep_not_letter {c : Char} (h : IsSep c) : ¬ cleanClasses.digit c = true := by
  rcases h with rfl | rfl | rfl | rfl <;> decide

theorem search_skip_all (t : Str) : ∀ (l : Cells), (∀ x ∈ l, IsSep x.2 ∧ NoName x.1) →
    search cleanClasses rxName (flat l ++ t) = search cleanClasses rxName t
  | [], _ => by simp [flat]
  | x :: l, h => by
    rw [flat_cons, List.append_assoc, List.cons_append,
      search_skip name_hr (sep_not_letter (h x List.mem_cons_self).1) (flat l ++ t) x.1 fun s hs hd =>
        (h x List.mem_cons_self).2 ((describes_name hd).1.isInfix.trans hs),
      search_skip_all t l fun y hy => h y (List.mem_cons_of_mem _ hy)]

theorem letters_digit {x : Str} (h : Letters x) : ∀ c ∈ x, cleanClasses.digit c = true := by
  intro c hc
  simpa [cleanClasses] using h.2 c hc

theorem nameToRole_cells {l : Cells} (hl : ∀ x ∈ l, IsSep x.2 ∧ NoName x.1) {x : Str} (hx : Letters x) :
    nameToRole (flat (l ++ [(['N', 'a', 'm', 'e'] ++ x, '>')])) = flat (l ++ [(roleText x, '>')]) := by
  have hrun : rxName.run cleanClasses done (['N', 'a', 'm', 'e'] ++ x ++ ['>']) [] =
      some (['>'], [(.choice, ['N', 'a', 'm', 'e'] ++ x), (.message, x)]) := by
    unfold rxName
    apply run_cap
    simp only [seqs, Rx.run]
    rw [List.append_assoc]
    apply run_lit
    have := run_cap_num cleanClasses (k := fun t' c' => done t' ((.choice, (['N', 'a', 'm', 'e'] ++ (x ++ ['>'])).take
      ((['N', 'a', 'm', 'e'] ++ (x ++ ['>'])).length - t'.length)) :: c')) (t := ['>']) (c := [])
      (res := (['>'], [(.choice, ['N', 'a', 'm', 'e'] ++ x), (.message, x)])) .message x ⟨hx.1, letters_digit hx⟩ (by
        show cleanClasses.digit '>' = false
        decide) (by
        simp only [done, Option.some.injEq, Prod.mk.injEq, List.cons.injEq, and_true, true_and]
        rw [← List.append_assoc, List.length_append, Nat.add_sub_cancel, List.take_left])
    exact this
  have hsearch : search cleanClasses rxName (flat (l ++ [(['N', 'a', 'm', 'e'] ++ x, '>')])) =
      some (['>'], [(.choice, ['N', 'a', 'm', 'e'] ++ x), (.message, x)]) := by
    rw [flat_append, search_skip_all _ l hl, flat_cons]
    rw [show flat [] = [] from rfl]
    rw [show ['N', 'a', 'm', 'e'] ++ x ++ ['>'] = 'N' :: ('a' :: 'm' :: 'e' :: (x ++ ['>'])) by simp] at hrun
    simp only [List.cons_append, List.nil_append, search, hrun]
  have hend : search cleanClasses rxName ['>'] = none := by
    have := search_skip (t := []) name_hr (sep_not_letter (c := '>') (by simp [IsSep])) [] fun s hs hd =>
      (name_hr s hd).1 (List.infix_nil.mp hs)
    rw [List.nil_append] at this
    rw [this, search_none]
    intro a s b e hd
    have : s = [] := by
      have := congrArg List.length e
      simp at this
      exact List.eq_nil_of_length_eq_zero (by omega)
    exact (name_hr s hd).1 this
  have hcap : ∃ n, (flat (l ++ [(['N', 'a', 'm', 'e'] ++ x, '>')])).length = n + 1 := by
    refine ⟨(flat (l ++ [(['N', 'a', 'm', 'e'] ++ x, '>')])).length - 1, ?_⟩
    rw [flat_append, List.length_append, flat_cons]
    simp
    omega
  obtain ⟨n, hn⟩ := hcap
  unfold nameToRole captures
  rw [hn, searchAll, hsearch]
  simp only [searchAll, hend]
  simp only [List.foldl_cons, List.foldl_nil]
  have g1 : NuscrText.Caps.get [(.choice, ['N', 'a', 'm', 'e'] ++ x), (.message, x)] .choice = ['N', 'a', 'm', 'e'] ++ x := rfl
  have g2 : NuscrText.Caps.get [(.choice, ['N', 'a', 'm', 'e'] ++ x), (.message, x)] .message = x := rfl
  rw [g1, g2]
  have hnosep : ∀ c, IsSep c → c ∉ ['N', 'a', 'm', 'e'] ++ x := by
    intro c hc hm
    rcases List.mem_append.mp hm with hm | hm
    · rcases hc with rfl | rfl | rfl | rfl <;> revert hm <;> decide
    · exact sep_not_letter hc (letters_digit hx c hm)
  rw [replaceAll_flat _ (by simp) _ (by
    intro y hy
    rcases List.mem_append.mp hy with hy | hy
    · exact hnosep _ (hl y hy).1
    · rw [List.mem_singleton] at hy
      subst hy
      exact hnosep _ (by simp [IsSep]))]
  rw [List.map_append]
  congr 2
  · rw [List.map_congr_left (g := id), List.map_id]
    intro y hy
    unfold replaceAll
    rw [replaceFrom_none]
    · rfl
    · intro hi
      exact (hl y hy).2 ((List.prefix_append _ _).isInfix.trans hi)
  · have := replaceAll_prefix (pat := ['N', 'a', 'm', 'e'] ++ x) (roleText x) (by simp) [] (by simp)
    rw [List.append_nil, List.append_nil] at this
    simp only [List.map_cons, List.map_nil, this]

/-! ## The blanks are removed -/

def dark (s : Str) : Str := s.filter fun c => !isWs c

theorem dark_append (s t : Str) : dark (s ++ t) = dark s ++ dark t := by simp [dark]
theorem dark_plain {s : Str} (h : ∀ c ∈ s, Plain c) : dark s = s := by
  unfold dark
  rw [List.filter_eq_self]
  intro c hc
  simp [(h c hc).2.2.2.2]

mutual
  theorem dark_cells : ∀ (q : PTy) (c : Char), (∀ y ∈ q.nodes, ∀ ch ∈ y.2, Plain ch) →
      dark (flat (cellsOf (fun _ n => n) q c)) = q.erase.print ++ dark [c]
    | .mk p n [], c, h => by
      rw [cellsOf, flat_cons, dark_append, dark_plain (h (p, n) (by simp [PTy.nodes]))]
      simp [PTy.erase, eraseAll, Ty.print, flat]
    | .mk p n (a :: as), c, h => by
      have ih := dark_args (a :: as) (by simp) fun y hy => h y (by rw [PTy.nodes]; exact List.mem_cons_of_mem _ hy)
      rw [cellsOf, flat_cons, dark_append, dark_plain (h (p, n) (by simp [PTy.nodes])), ← List.singleton_append,
        dark_append, flat_append, dark_append, ih]
      have h1 : dark ['<'] = ['<'] := by decide
      rw [h1]
      simp [PTy.erase, eraseAll, Ty.print, flat]
  theorem dark_args : ∀ (as : List PTy), as ≠ [] → (∀ y ∈ nodesAll as, ∀ ch ∈ y.2, Plain ch) →
      dark (flat (argCells (fun _ n => n) as)) =
        (match as with | [] => [] | a :: as => a.erase.print ++ printMore (eraseAll as)) ++ ['>']
    | [], h, _ => absurd rfl h
    | a :: as, _, h => by
      have h1 := dark_cells a (if as.isEmpty then '>' else ',') fun y hy => h y (by rw [nodesAll]; exact List.mem_append_left _ hy)
      rw [argCells, flat_append, dark_append, h1]
      cases as with
      | nil =>
        simp only [argCells, eraseAll, printMore, List.isEmpty_nil, if_true]
        have : dark ['>'] = ['>'] := by decide
        rw [this]
        simp [flat, dark]
      | cons b bs =>
        have h2 := dark_args (b :: bs) (by simp) fun y hy => h y (by rw [nodesAll]; exact List.mem_append_right _ hy)
        rw [flat_append, dark_append, h2]
        have h3 : dark [','] = [','] := by decide
        have h4 : dark [' '] = [] := by decide
        simp only [List.isEmpty_cons, Bool.false_eq_true, if_false, h3]
        rw [show flat [([], ' ')] = [' '] from rfl, h4]
        simp [eraseAll, printMore]
end

theorem eraseAll_eq : ∀ (as : List PTy), eraseAll as = as.map PTy.erase
  | [] => by simp [eraseAll]
  | a :: as => by rw [eraseAll, eraseAll_eq as, List.map_cons]

theorem dark_init : ∀ (as : List PTy), (∀ y ∈ nodesAll as, ∀ ch ∈ y.2, Plain ch) →
    dark (flat (initCells (fun _ n => n) as)) = (eraseAll as).flatMap fun t => t.print ++ [',']
  | [], _ => by simp [initCells, flat, dark, eraseAll]
  | a :: as, h => by
    have h1 := dark_cells a ',' fun y hy => h y (by rw [nodesAll]; exact List.mem_append_left _ hy)
    have h2 := dark_init as fun y hy => h y (by rw [nodesAll]; exact List.mem_append_right _ hy)
    have h3 : dark [','] = [','] := by decide
    have h4 : dark [' '] = [] := by decide
    unfold initCells at h2 ⊢
    rw [List.flatMap_cons, flat_append, flat_append, dark_append, dark_append, h1, h2, h3,
      show flat [([], ' ')] = [' '] from rfl, h4, eraseAll, List.flatMap_cons]
    simp

theorem print_last (H : Str) (l : Ty) : ∀ (ts : List Ty), (Ty.mk H (ts ++ [l])).print =
    H ++ '<' :: (ts.flatMap (fun t => t.print ++ [',']) ++ l.print) ++ ['>'] := by
  have key : ∀ (t : Ty) (ts : List Ty), t.print ++ printMore (ts ++ [l]) =
      (t :: ts).flatMap (fun t => t.print ++ [',']) ++ l.print := by
    intro t ts
    induction ts generalizing t with
    | nil => simp [printMore]
    | cons u ts ih =>
      rw [List.cons_append, printMore, ih u]
      simp
  intro ts
  cases ts with
  | nil => simp [Ty.print, printMore]
  | cons t ts => rw [List.cons_append, Ty.print, key t ts]

mutual
  theorem erase_ok : ∀ (q : PTy), (∀ y ∈ q.nodes, ∀ ch ∈ y.2, Plain ch) → q.erase.Ok
    | .mk p n as, h => by
      rw [PTy.erase, Ty.Ok]
      exact ⟨h (p, n) (by simp [PTy.nodes]), eraseAll_ok as fun y hy => h y (by rw [PTy.nodes]; exact List.mem_cons_of_mem _ hy)⟩
  theorem eraseAll_ok : ∀ (as : List PTy), (∀ y ∈ nodesAll as, ∀ ch ∈ y.2, Plain ch) → AllOk (eraseAll as)
    | [], _ => by simp [eraseAll, AllOk]
    | a :: as, h => by
      rw [eraseAll, AllOk]
      exact ⟨erase_ok a fun y hy => h y (by rw [nodesAll]; exact List.mem_append_left _ hy),
        eraseAll_ok as fun y hy => h y (by rw [nodesAll]; exact List.mem_append_right _ hy)⟩
end

theorem letter_plain {c : Char} (h : cleanClasses.digit c = true) : Plain c := by
  have h' : (65 ≤ c.toNat ∧ c.toNat ≤ 90) ∨ (97 ≤ c.toNat ∧ c.toNat ≤ 122) := by simpa [cleanClasses] using h
  refine ⟨?_, ?_, ?_, ?_, ?_⟩
  · rintro rfl; revert h'; decide
  · rintro rfl; revert h'; decide
  · rintro rfl; revert h'; decide
  · rintro rfl; revert h'; decide
  · unfold isWs
    simp only [Bool.or_eq_false_iff, Bool.and_eq_false_iff, beq_eq_false_iff_ne, decide_eq_false_iff_not]
    omega

/-- The cleaning of a well-named `MeshedChannels` type. -/
theorem cleanSession_print (k : Nat) {q : PTy} {fields : List Ty} {x : Str} (h : MeshType q fields x) :
    cleanSession (amps k ++ q.print) = some (fields.map Ty.print ++ [roleText x, ['R', 'o', 'l', 'e'] ++ x]) := by
  obtain ⟨⟨path, head, args, npath, rfl, rfl, hno, hhead⟩, hx, hW⟩ := h
  obtain ⟨H, hH, hstrip⟩ := stripPaths_print k (by simp) hW
  have hroot : (path, head) ∈ (PTy.mk path head (args ++ [.mk npath (['N', 'a', 'm', 'e'] ++ x) []])).nodes := by simp [PTy.nodes]
  have hHplain : ∀ c ∈ H, Plain c := by
    rcases hH with rfl | rfl
    · exact token_plain hW hroot
    · exact fun c hc => ((hW.ident _ hroot).1.2 c hc).1
  have hHno : NoName H := by
    rcases hH with rfl | rfl
    · exact hhead
    · intro hi
      apply hhead
      refine hi.trans ?_
      by_cases hp : path = []
      · subst hp; exact List.infix_refl _
      · obtain ⟨A, _, e⟩ := token_form hW hroot hp
        rw [e]
        exact (List.suffix_append _ _).isInfix
  have hargs : ∀ y ∈ nodesAll args, ∀ ch ∈ y.2, Plain ch := by
    intro y hy ch hc
    exact ((hW.ident y (by rw [PTy.nodes, nodes_append]; exact List.mem_cons_of_mem _ (List.mem_append_left _ hy))).1.2 ch hc).1
  unfold cleanSession
  rw [hstrip, argCells_last, ← List.cons_append, nameToRole_cells (l := (H, '<') :: initCells (fun _ n => n) args) (by
    intro y hy
    rcases List.mem_cons.mp hy with rfl | hy
    · exact ⟨by simp [IsSep], hHno⟩
    · obtain ⟨h1, h2⟩ := initCells_mem y hy
      refine ⟨h1, ?_⟩
      rcases h2 with h2 | ⟨z, hz, h2⟩
      · rw [h2]; simp [NoName]
      · rw [h2]; exact hno z hz) hx]
  have hxp : ∀ c ∈ x, Plain c := fun c hc => letter_plain (letters_digit hx c hc)
  have hlast : Ty.Ok (.mk (['R', 'o', 'l', 'e'] ++ x) [.mk ['R', 'o', 'l', 'e', 'E', 'n', 'd'] []]) := by
    simp only [Ty.Ok, AllOk, and_true]
    refine ⟨?_, ?_⟩
    · intro c hc
      rcases List.mem_append.mp hc with hc | hc
      · clear hx hxp
        have : ∀ c ∈ ['R', 'o', 'l', 'e'], Plain c := by simp only [Plain]; decide
        exact this c hc
      · exact hxp c hc
    · simp only [Plain]; decide
  have hlastp : Ty.print (.mk (['R', 'o', 'l', 'e'] ++ x) [.mk ['R', 'o', 'l', 'e', 'E', 'n', 'd'] []]) = roleText x := by
    simp [Ty.print, printMore, roleText]
  have htext : (flat ((H, '<') :: initCells (fun _ n => n) args ++ [(roleText x, '>')])).filter (fun c => !isWs c) =
      (Ty.mk H (eraseAll args ++ [.mk (['R', 'o', 'l', 'e'] ++ x) [.mk ['R', 'o', 'l', 'e', 'E', 'n', 'd'] []]])).print := by
    show dark _ = _
    rw [print_last, hlastp, List.cons_append, flat_cons, dark_append, dark_plain hHplain, ← List.singleton_append, dark_append,
      flat_append, dark_append, dark_init args hargs, flat_cons, show flat [] = [] from rfl, dark_append]
    have h1 : dark ['<'] = ['<'] := by decide
    have h2 : dark ['>'] = ['>'] := by decide
    have h3 : dark (roleText x) = roleText x := by
      unfold roleText
      rw [dark_append, dark_append, dark_plain hxp]
      rfl
    rw [h1, h2, h3]
    simp
  rw [htext]
  have hb := Prop.getBlocks_print (Ty.mk H (eraseAll args ++ [.mk (['R', 'o', 'l', 'e'] ++ x) [.mk ['R', 'o', 'l', 'e', 'E', 'n', 'd'] []]]))
    (by
      simp only [Ty.Ok]
      refine ⟨hHplain, allOk_iff.2 ?_⟩
      intro t ht
      rcases List.mem_append.mp ht with ht | ht
      · exact allOk_iff.1 (eraseAll_ok args hargs) t ht
      · rw [List.mem_singleton] at ht
        rw [ht]
        exact hlast)
  simp only at hb
  unfold cleanBlocks
  simp only [hb, List.map_append, List.map_cons, List.map_nil, hlastp]
  have h1 : (roleText x).dropWhile (fun c => c == '<' || c == '>') = roleText x := by
    unfold roleText
    simp
  have h2 : (roleText x).takeWhile (fun c => c != '<' && c != '>') = ['R', 'o', 'l', 'e'] ++ x := by
    unfold roleText
    rw [List.append_assoc, List.takeWhile_append_of_pos]
    · rw [List.takeWhile_append_of_pos]
      · simp
      · intro c hc
        have := hxp c hc
        simp [this.1, this.2.1]
    · decide
  simp only [List.getLast?_append, List.getLast?_singleton, Option.some_or, h1, h2]
  simp

end Verif.Check
