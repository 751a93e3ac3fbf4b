import Verif.Spec.Ready3
import Verif.Prop.C58
import Verif.Prop.C14
/-!
# C61: the ready-made operations for three roles

Specification vocabulary: `Verif/Spec/Ready3.lean` (`CommunicatesOn`, `Accepts`, `Holds`), `Verif/Spec/Wiring.lean`
(`Wired`, `Connected`), `Verif/Spec/Pairs.lean` (`slotOf`).  The operations: `Verif/Model/Ready3.lean`.
-/
namespace Verif.Prop
open Verif.Indexed Verif.Spec Verif.Hand3 Verif.Ready3

/-- C61: there is a send, a reception and an offer for each ordered pair of different roles, as a function and as a method,
and none between a role and itself.  They are what the macros that take an index make for three roles and the position of
the partner; but the offers that are functions take any type for the session with the third role (`C61_offer_types`). -/
theorem C61_table (form : Form) (r p : Role3) :
    (sendOp form r p = if r = p then none else some (sendFn (roleTy p) (nameTy r) 3 (slotOf r.num p.num))) ∧
    (recvOp form r p = if r = p then none else some (recvFn (roleTy p) (nameTy r) 3 (slotOf r.num p.num))) ∧
    (offerOp .method r p = if r = p then none else offerFn 3 (allTy p) (nameTy r) 3 (slotOf r.num p.num)) := by
  cases form <;> cases r <;> cases p <;> decide +kernel

/-- C61: the types of the offers.  The methods ask that the session with the third role is finished; the functions take a
parameter of their own. -/
theorem C61_offer_types (form : Form) (r p : Role3) (h : r ≠ p) :
    ∃ f, offerOp form r p = some f ∧ f.stack = .two (allTy p) .fin .fin ∧ f.name = nameTy r ∧
      f.sessions.length = 2 ∧
      (∀ i, 1 ≤ i → i < 3 → f.sessions[i - 1]? = some (if i = slotOf r.num p.num
        then .recv (.either [1, 2] 1 [3, 4] 2 (nameTy r)) .fin
        else if form = .method then .fin else .var 5)) ∧
      f.ret = .branches [1, 2] 1 [3, 4] 2 := by
  have two : ∀ i, 1 ≤ i → i < 3 → i = 1 ∨ i = 2 := by intros; omega
  cases form <;> cases r <;> cases p <;> first
    | exact absurd rfl h
    | exact ⟨_, rfl, rfl, rfl, rfl, fun i h1 h2 => by rcases two i h1 h2 with rfl | rfl <;> rfl, rfl⟩

/-- C61: every operation is well-typed: what its statements build has the type its signature promises. -/
theorem C61_compiles (form : Form) (op : Form → Role3 → Role3 → Option Fn)
    (hop : op = sendOp ∨ op = recvOp ∨ op = recvAllOp ∨ op = offerOp) (r p : Role3) (h : r ≠ p) :
    ∃ f, op form r p = some f ∧ Compiles 3 f := by
  rcases hop with rfl | rfl | rfl | rfl <;> cases form <;> cases r <;> cases p <;> first
    | exact absurd rfl h
    | exact ⟨_, rfl, rfl, _, rfl, rfl, List.Perm.refl _, rfl⟩
    | exact ⟨_, rfl, rfl, _, rfl, rfl, List.Perm.refl _, rfl, rfl⟩
    | exact ⟨_, rfl, rfl, _, rfl, rfl, rfl, List.Perm.refl _, rfl⟩

/-- C61: `send` communicates on the session with the receiver, and on no other, for all sessions, messages and stacks and
whatever the communication does. -/
theorem C61_send {E α X K : Type} (o : Ops E α X K) (form : Form) (r p : Role3) (h : r ≠ p) (x : X) :
    ∃ f, sendOp form r p = some f ∧ CommunicatesOn f o (some x) (sendComm o x) o.pop (slotOf r.num p.num) := by
  refine ⟨_, by rw [(C61_table form r p).1, if_neg h], ?_⟩
  intro slots stack s hl hs
  have hk : 1 ≤ slotOf r.num p.num ∧ slotOf r.num p.num < 3 := by cases r <;> cases p <;> first | exact absurd rfl h | decide
  obtain ⟨t, h1, h2, h3⟩ := C58_send o slots stack (roleTy p) (nameTy r) 3 (slotOf r.num p.num) hk.1 hk.2 hl x
  rw [hs] at h1; cases h1
  constructor
  · intro e he
    refine h2 e ?_
    unfold sendComm at he
    cases hr : o.send x s with
    | none => rw [hr] at he; cases he
    | some v => cases v with
      | error e' => rw [hr] at he; cases he; rfl
      | ok s' => rw [hr] at he; cases he
  · intro got s' q he hq
    unfold sendComm at he
    cases hr : o.send x s with
    | none => rw [hr] at he; cases he
    | some v => cases v with
      | error e' => rw [hr] at he; cases he
      | ok s'' => rw [hr] at he; cases he; exact h3 _ q hr hq

private theorem recv_of {E α X K : Type} {o : Ops E α X K} {s : α} {out : Except E (Option X × α)}
    (h : recvComm o s = some out) :
    match out with
    | .error e => o.recv s = some (.error e)
    | .ok (got, s') => ∃ v, got = some v ∧ o.recv s = some (.ok (v, s')) := by
  unfold recvComm at h
  cases hr : o.recv s with
  | none => rw [hr] at h; cases h
  | some v => cases v with
    | error e' => rw [hr] at h; cases h; rfl
    | ok p => rw [hr] at h; cases h; exact ⟨_, rfl, rfl⟩

/-- C61: `recv` communicates on the session with the sender, and on no other. -/
theorem C61_recv {E α X K : Type} (o : Ops E α X K) (form : Form) (r p : Role3) (h : r ≠ p) :
    ∃ f, recvOp form r p = some f ∧ CommunicatesOn f o none (recvComm o) o.pop (slotOf r.num p.num) := by
  refine ⟨_, by rw [(C61_table form r p).2.1, if_neg h], ?_⟩
  intro slots stack s hl hs
  have hk : 1 ≤ slotOf r.num p.num ∧ slotOf r.num p.num < 3 := by cases r <;> cases p <;> first | exact absurd rfl h | decide
  obtain ⟨t, h1, h2, h3⟩ := C58_recv o slots stack (roleTy p) (nameTy r) 3 (slotOf r.num p.num) hk.1 hk.2 hl
  rw [hs] at h1; cases h1
  refine ⟨fun e he => h2 e (recv_of he), fun got s' q he hq => ?_⟩
  obtain ⟨v, rfl, hr⟩ := recv_of he
  exact h3 v s' q hr hq

/-- C61: `offer` receives the choice on the session with the role that chooses, and touches no other session; the mesh is
then dropped and the branch received is run (`CommunicatesOn` names the mesh that is dropped and what was received). -/
theorem C61_offer {E α X K : Type} (o : Ops E α X K) (form : Form) (r p : Role3) (h : r ≠ p) :
    ∃ f, offerOp form r p = some f ∧ CommunicatesOn f o none (recvComm o) o.popLeft (slotOf r.num p.num) := by
  obtain ⟨g, hg, hb, hfl⟩ : ∃ g, offerFn 3 (allTy p) (nameTy r) 3 (slotOf r.num p.num) = some g ∧
      (∀ f, offerOp form r p = some f → f.body = g.body) ∧ (∀ f, offerOp form r p = some f → f.fields = g.fields) := by
    cases form <;> cases r <;> cases p <;> first
      | exact absurd rfl h
      | exact ⟨_, rfl, fun f hf => by cases hf; rfl, fun f hf => by cases hf; rfl⟩
  obtain ⟨f, hf, -⟩ := C61_offer_types form r p h
  refine ⟨f, hf, ?_⟩
  intro slots stack s hl hs
  have hk : 1 ≤ slotOf r.num p.num ∧ slotOf r.num p.num < 3 := by cases r <;> cases p <;> first | exact absurd rfl h | decide
  have hc : f.call o none slots stack = g.call o none slots stack := by
    unfold Fn.call; rw [hb f hf, hfl f hf]
  obtain ⟨t, h1, h2, h3⟩ := C58_offer o slots stack (allTy p) (nameTy r) 3 (slotOf r.num p.num) 3 g hg hk.1 hk.2 hl
  rw [hs] at h1; cases h1
  rw [hc]
  refine ⟨fun e he => h2 e (recv_of he), fun got s' q he hq => ?_⟩
  obtain ⟨v, rfl, hr⟩ := recv_of he
  exact h3 v s' q hr hq

private theorem mem_of_lookup3 {β : Type} {l : List (Nat × β)} {k : Nat} {d : β} (h : l.lookup k = some d) :
    (k, d) ∈ l := by
  induction l with
  | nil => cases h
  | cons a l ih =>
    obtain ⟨i, b⟩ := a
    rw [List.lookup_cons] at h
    by_cases hk : k = i
    · subst hk; simp at h; subst h; exact List.mem_cons_self
    · rw [show (k == i) = false by simp [hk]] at h
      exact List.mem_cons_of_mem _ (ih h)

/-- C61, with the wiring of `fork_mpst` (`C14_hand_written_fork`) and of the choices (C12, C14): what `r` sends to `p` goes
into one end of a channel of which `p`'s reception from `r`, and `p`'s offer to `r`, use the other end.  The third role
has no end of this channel. -/
theorem C61_pair (fresh : Nat) (mesh : Nat → Gen.MeshV) (hw : Wired 3 fresh mesh) (r p : Role3) (h : r ≠ p) :
    ∃ e f, Connected e f ∧ ∀ (F F' : Form),
      (∀ {E α X K : Type} (o : Ops E α X K) (v : Gen.EP → α) (x : X) (slots : List α), Holds (mesh r.num) v slots →
        ∃ g i, sendOp F r p = some g ∧ slots[i - 1]? = some (v e) ∧
          CommunicatesOn g o (some x) (sendComm o x) o.pop i) ∧
      (∀ {E α X K : Type} (o : Ops E α X K) (v : Gen.EP → α) (slots : List α), Holds (mesh p.num) v slots →
        ∃ g g' i, recvOp F' p r = some g ∧ offerOp F' p r = some g' ∧ slots[i - 1]? = some (v f) ∧
          CommunicatesOn g o none (recvComm o) o.pop i ∧ CommunicatesOn g' o none (recvComm o) o.popLeft i) ∧
      (∀ t, IsRole 3 t → t ≠ r.num → t ≠ p.num → ∀ k d, (mesh t).slot k = some d → d.chan ≠ e.chan) := by
  have hr : IsRole 3 r.num := by cases r <;> exact ⟨by decide, by decide⟩
  have hp : IsRole 3 p.num := by cases p <;> exact ⟨by decide, by decide⟩
  have hn : r.num ≠ p.num := by cases r <;> cases p <;> first | exact absurd rfl h | decide
  have hk : 1 ≤ slotOf r.num p.num ∧ 1 ≤ slotOf p.num r.num := by
    cases r <;> cases p <;> first | exact absurd rfl h | decide
  obtain ⟨e, f, he, hf, hc⟩ := hw.linked r.num p.num hr hp hn
  refine ⟨e, f, hc, fun F F' => ⟨?_, ?_, ?_⟩⟩
  · intro E α X K o v x slots hh
    obtain ⟨g, h1, h2⟩ := C61_send o F r p h x
    exact ⟨g, _, h1, hh.2 _ e hk.1 he, h2⟩
  · intro E α X K o v slots hh
    obtain ⟨g, h1, h2⟩ := C61_recv o F' p r (Ne.symm h)
    obtain ⟨g', h3, h4⟩ := C61_offer o F' p r (Ne.symm h)
    exact ⟨g, g', _, h1, h3, hh.2 _ f hk.2 hf, h2, h4⟩
  · intro t ht htr htp k d hd hch
    have hkm : k ∈ List.range' 1 2 := by
      refine (hw.fields t ht).mem_iff.1 ?_
      unfold Gen.MeshV.slot at hd
      exact List.mem_map.2 ⟨(k, d), mem_of_lookup3 hd, rfl⟩
    have hks : ∃ j, IsRole 3 j ∧ t ≠ j ∧ slotOf t j = k := by
      simp only [List.mem_range'_1] at hkm
      have hq := Gen.partner_role ht hkm.1 (by omega : k ≤ 3 - 1)
      refine ⟨partner t k, hq.1, Ne.symm hq.2, ?_⟩
      unfold slotOf partner
      (repeat' split) <;> omega
    obtain ⟨j, hj, htj, rfl⟩ := hks
    rcases hw.distinct t j r.num p.num d e ht hj htj hr hp hn hd he hch with ⟨h1, -⟩ | ⟨h1, -⟩
    · exact htr h1
    · exact htp h1

/-- C61: the stack and the name of a mesh decide which `send`, which `recv`, which `recv_from_all` and which `offer` can be
called on it: no call is ambiguous. -/
theorem C61_one_method (form : Form) (op : Form → Role3 → Role3 → Option Fn)
    (hop : op = sendOp ∨ op = recvOp ∨ op = recvAllOp ∨ op = offerOp) (r p r' p' : Role3) (f f' : Fn)
    (hf : op form r p = some f) (hf' : op form r' p' = some f') (stack : Stk) (name : Str)
    (h : Accepts f stack name) (h' : Accepts f' stack name) : r = r' ∧ p = p' := by
  have key : ∀ q q' n n' : Role3, (roleTy q = roleTy q' ∨ allTy q = allTy q') → nameTy n = nameTy n' → n = n' ∧ q = q' := by
    intro q q' n n'
    cases q <;> cases q' <;> cases n <;> cases n' <;> decide +kernel
  obtain ⟨⟨ρ, h1⟩, h2⟩ := h
  obtain ⟨⟨ρ', h1'⟩, h2'⟩ := h'
  have h3 := h1.trans h1'.symm
  have h4 := h2.trans h2'.symm
  have shape : ∀ (r p : Role3) (f : Fn), op form r p = some f → f.name = nameTy r ∧
      ((∀ ρ, ∃ x, inst ρ f.stack = .role (roleTy p) x) ∨ (∀ ρ, inst ρ f.stack = .two (allTy p) .fin .fin)) := by
    intro r p f hf
    rcases hop with rfl | rfl | rfl | rfl <;> cases form <;> cases r <;> cases p <;> cases hf <;>
      first
      | exact ⟨rfl, .inl fun ρ => ⟨_, rfl⟩⟩
      | exact ⟨rfl, .inr fun ρ => rfl⟩
  obtain ⟨n1, s1⟩ := shape r p f hf
  obtain ⟨n2, s2⟩ := shape r' p' f' hf'
  refine key p p' r r' ?_ (n1.symm.trans (h4.trans n2))
  rcases s1 with s1 | s1 <;> rcases s2 with s2 | s2
  · obtain ⟨x, e1⟩ := s1 ρ
    obtain ⟨y, e2⟩ := s2 ρ'
    rw [e1, e2] at h3; injection h3 with e; exact .inl e
  · obtain ⟨x, e1⟩ := s1 ρ
    rw [e1, s2 ρ'] at h3; cases h3
  · obtain ⟨y, e2⟩ := s2 ρ'
    rw [s1 ρ, e2] at h3; cases h3
  · rw [s1 ρ, s2 ρ'] at h3; injection h3 with e; exact .inr e

/-- C61: an offer that is a function also takes a mesh whose session with the third role is not finished, and drops this
session: the third role, still in the middle of it, is left without a partner.  The methods and the functions made by the
macro do not (`C61_offer_types`, `C58_offer_types`). -/
theorem C61_offer_drops {E α X K : Type} (o : Ops E α X K) (r p : Role3) (h : r ≠ p) (third : Nat)
    (h3 : third = 3 - slotOf r.num p.num) :
    ∃ f, offerOp .function r p = some f ∧ f.sessions[third - 1]? = some (.var 5) ∧
      ∀ (slots : List α) (stack : K) (c s : α) (v : X) (c' : α) (q : K), slots.length = 2 →
        slots[slotOf r.num p.num - 1]? = some c → slots[third - 1]? = some s → o.recv c = some (.ok (v, c')) →
        o.popLeft stack = some q →
        ∃ out, f.call o none slots stack = some (.ok out) ∧ out.got = some v ∧ (third, s) ∈ out.mesh := by
  obtain ⟨f, hf, -, -, hl, hs, -⟩ := C61_offer_types .function r p h
  have hk : (slotOf r.num p.num = 1 ∧ third = 2) ∨ (slotOf r.num p.num = 2 ∧ third = 1) := by
    subst h3; cases r <;> cases p <;> first | exact absurd rfl h | decide
  refine ⟨f, hf, ?_, ?_⟩
  · rw [hs third (by omega) (by omega), if_neg (by omega)]; rfl
  · intro slots stack c s v c' q hlen hc ht hr hq
    obtain ⟨f', hf', hcom⟩ := C61_offer o .function r p h
    rw [hf] at hf'; cases hf'
    refine ⟨_, (hcom slots stack c hlen hc).2 (some v) c' q (by unfold recvComm; rw [hr]; rfl) hq, rfl, ?_⟩
    match slots, hlen with
    | [a, b], _ =>
      rcases hk with ⟨e1, e2⟩ | ⟨e1, e2⟩ <;> rw [e1] at hc ⊢ <;> rw [e2] at ht ⊢ <;> cases ht <;> cases hc
      · exact List.mem_cons_of_mem _ List.mem_cons_self
      · exact List.mem_cons_self

/-- C61: `create_send_mpst_session_1!` and the like make the operations of the role whose first (second) partner is meant. -/
theorem C61_short (r p : Role3) (h : r ≠ p) (two : Bool) (ht : two = (slotOf r.num p.num == 2)) :
    sendOp .method r p = some (sendFn (roleTy p) (nameTy r) (shortArgs two).1 (shortArgs two).2) ∧
    recvOp .method r p = some (recvFn (roleTy p) (nameTy r) (shortArgs two).1 (shortArgs two).2) ∧
    offerOp .method r p = offerFn 3 (allTy p) (nameTy r) (shortArgs two).1 (shortArgs two).2 := by
  subst ht
  cases r <;> cases p <;> first | exact absurd rfl h | exact ⟨rfl, rfl, rfl⟩

/-! ### Non-vacuity -/

private def numOps3 : Ops Unit Nat Nat (List Nat) where
  poll a := if a = 0 then some (.error ()) else some (.ok ())
  send x a := some (.ok (x + a))
  sendCanceled x a := some (.ok (x + a))
  recv a := some (.ok (a, a + 1))
  pop | [] => none | _ :: r => some r
  popLeft | [] => none | _ :: r => some r

example : ((sendOp .function .C .B).bind fun f => f.call numOps3 (some 100) [5, 6] [1, 2]).map
    (fun r => r.toOption.map fun x => (x.mesh, x.stack)) = some (some ([(1, 5), (2, 106)], [2])) := by decide
example : ((recvOp .method .B .C).bind fun f => f.call numOps3 none [5, 6] [1, 2]).map
    (fun r => r.toOption.map fun x => (x.mesh, x.got)) = some (some ([(1, 5), (2, 7)], some 6)) := by decide
example : ((offerOp .function .A .C).bind fun f => f.call numOps3 none [5, 6] [1, 2]).map
    (fun r => r.toOption.map fun x => (x.mesh, x.got)) = some (some ([(1, 5), (2, 7)], some 6)) := by decide
example : ∃ mesh, Wired 3 0 mesh ∧ ∃ slots : List Nat, Holds (mesh 1) Gen.EP.chan slots := by
  obtain ⟨_, mesh, _, h, _⟩ := C14_hand_written_fork 0
  obtain ⟨e, _, he, _⟩ := h.linked 1 2 ⟨by decide, by decide⟩ ⟨by decide, by decide⟩ (by decide)
  obtain ⟨e', _, he', _⟩ := h.linked 1 3 ⟨by decide, by decide⟩ ⟨by decide, by decide⟩ (by decide)
  refine ⟨mesh, h, [e.chan, e'.chan], rfl, ?_⟩
  intro i d hi hd
  have hm : i ∈ List.range' 1 2 :=
    (h.fields 1 ⟨by decide, by decide⟩).mem_iff.1 (List.mem_map.2 ⟨(i, d), mem_of_lookup3 hd, rfl⟩)
  simp only [List.mem_range'_1] at hm
  rcases (by omega : i = 1 ∨ i = 2) with rfl | rfl
  · rw [show slotOf 1 2 = 1 from rfl] at he; rw [he] at hd; cases hd; rfl
  · rw [show slotOf 1 3 = 2 from rfl] at he'; rw [he'] at hd; cases hd; rfl
example : ∃ f, offerOp .method .A .B = some f ∧ Accepts f (.two "RoleAlltoB".toList .fin .fin) "NameA".toList :=
  ⟨_, rfl, ⟨fun _ => .fin, rfl⟩, rfl⟩

end Verif.Prop
