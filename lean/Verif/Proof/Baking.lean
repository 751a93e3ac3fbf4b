import Verif.Spec.Baking
import Verif.Proof.GenTypes
import Verif.Prop.C18
/-! Proofs about the emitted `impl` blocks. -/
namespace Verif.Baking
open Verif.Spec Verif.Gen Verif.SendRecv

theorem instList_eq (d : RTy → RTy) (σ : TVar → RTy) (l : List Pat) : instList d σ l = l.map (inst d σ) := by
  induction l with
  | nil => simp [instList]
  | cons p l ih => simp [instList, ih]

theorem inst_meshP (d σ M ss st nm) : inst d σ (meshP M ss st nm) =
    .app (.here M) (ss.map (inst d σ) ++ [inst d σ st, inst d σ nm]) := by
  simp [meshP, inst, instList_eq]

/-- Values of the six constants. -/
def constVals (σ : TVar → RTy) : List RTy := (List.range 6).map fun k => σ (.C k)

theorem constVals_length (σ) : (constVals σ).length = 6 := by simp [constVals]

theorem inst_consts (d σ) : consts.map (inst d σ) = constVals σ := by
  simp [consts, constVals, inst]

theorem inst_sendP (d σ timed t s) : inst d σ (sendP timed t s) =
    sendTy timed (constVals σ) (inst d σ t) (inst d σ s) := by
  unfold sendP sendTy
  cases timed
  · simp [inst, instList]
  · simp only [inst, instList_eq, if_true, List.cons_append, List.map_cons, List.map_append, inst_consts]; rfl

theorem inst_recvP (d σ timed t s) : inst d σ (recvP timed t s) =
    recvTy timed (constVals σ) (inst d σ t) (inst d σ s) := by
  unfold recvP recvTy
  cases timed
  · simp [inst, instList]
  · simp only [inst, instList_eq, if_true, List.cons_append, List.map_cons, List.map_append, inst_consts]; rfl

theorem roleId_eq (a) : roleId a = "Role".toList ++ a := rfl
theorem toAllId_eq (a) : toAllId a = "Role".toList ++ a ++ "toAll".toList := rfl
theorem allToId_eq (a) : allToId a = "RoleAllto".toList ++ a := rfl
theorem nameId_eq (a) : nameId a = "Name".toList ++ a := rfl
theorem roleAt_eq (roles i) : roleAt roles i = roleName roles i := rfl

theorem meshTy_congr {M roles i F F' st} (h : ∀ j, IsRole roles.length j → j ≠ i → F j = F' j)
    (hi : IsRole roles.length i) : meshTy M roles i F st = meshTy M roles i F' st := by
  unfold meshTy
  congr 2
  apply List.map_congr_left
  intro k hk
  rw [mem_range'] at hk
  have := partner_role hi hk.1 (by omega : k ≤ roles.length - 1)
  exact h _ this.1 this.2

theorem mesh_app_eq {M roles i F st} {G : Nat → RTy} (h : ∀ k, 1 ≤ k → k ≤ roles.length - 1 → G k = F (partner i k)) :
    RTy.app (.here M) ((List.range' 1 (roles.length - 1)).map G ++ [st, nameTy (roleName roles i)]) =
      meshTy M roles i F st := by
  unfold meshTy
  congr 2
  apply List.map_congr_left
  intro k hk
  rw [mem_range'] at hk
  exact h k hk.1 (by omega)

/-! ## The `Self` types -/

theorem sendBlock_self (d σ timed M roles i j) (hi : IsRole roles.length i) (hj : IsRole roles.length j) (hij : i ≠ j) :
    inst d σ (sendBlock timed M roles roles.length i j).self =
      meshTy M roles i (fun q => if q = j then sendTy timed (constVals σ) (σ .T) (σ (.S (slotOf i j)))
        else σ (.S (slotOf i q))) (roleTy (roleName roles j) (σ (.R 0))) := by
  simp only [sendBlock, inst_meshP, List.map_map]
  refine Eq.trans ?_ (mesh_app_eq (G := fun k => inst d σ (if isComm i j k = true then
    sendP timed (.var .T) (.var (.S k)) else .var (.S k))) ?_)
  · simp only [inst, instList, roleId_eq, nameId_eq, roleAt_eq, roleTy, nameTy]
    rfl
  · intro k h1 h2
    rw [Prop.isComm_iff hi hj hij h1]
    have hk := slot_partner (i := i) h1
    by_cases e : k = slotOf i j
    · subst e
      simp [partner_slot hj hij, inst_sendP, inst]
    · have : partner i k ≠ j := by intro h; apply e; rw [← h, hk]
      simp [e, this, hk, inst]

theorem recvBlock_self (d σ timed M roles i j) (hi : IsRole roles.length i) (hj : IsRole roles.length j) (hij : i ≠ j) :
    inst d σ (recvBlock timed M roles roles.length i j).self =
      meshTy M roles i (fun q => if q = j then recvTy timed (constVals σ) (σ .T) (σ (.S (slotOf i j)))
        else σ (.S (slotOf i q))) (roleTy (roleName roles j) (σ (.R 0))) := by
  simp only [recvBlock, inst_meshP, List.map_map]
  refine Eq.trans ?_ (mesh_app_eq (G := fun k => inst d σ (if isComm i j k = true then
    recvP timed (.var .T) (.var (.S k)) else .var (.S k))) ?_)
  · simp only [inst, instList, roleId_eq, nameId_eq, roleAt_eq, roleTy, nameTy]
    rfl
  · intro k h1 h2
    rw [Prop.isComm_iff hi hj hij h1]
    have hk := slot_partner (i := i) h1
    by_cases e : k = slotOf i j
    · subst e
      simp [partner_slot hj hij, inst_recvP, inst]
    · have : partner i k ≠ j := by intro h; apply e; rw [← h, hk]
      simp [e, this, hk, inst]

theorem recvFromAllBlock_self (d σ timed M roles i j) (hi : IsRole roles.length i) (hj : IsRole roles.length j)
    (hij : i ≠ j) : inst d σ (recvFromAllBlock timed M roles roles.length i j).self =
      meshTy M roles i (fun q => if q = j then recvTy timed (constVals σ) (σ .T) (σ (.S (slotOf i j)))
        else σ (.S (slotOf i q))) (allToTy (roleName roles j)) := by
  simp only [recvFromAllBlock, inst_meshP, List.map_map]
  refine Eq.trans ?_ (mesh_app_eq (G := fun k => inst d σ (if isComm i j k = true then
    recvP timed (.var .T) (.var (.S k)) else .var (.S k))) ?_)
  · simp only [inst, instList, allToId_eq, nameId_eq, roleAt_eq, allToTy, nameTy, roleEndTy]
    rfl
  · intro k h1 h2
    rw [Prop.isComm_iff hi hj hij h1]
    have hk := slot_partner (i := i) h1
    by_cases e : k = slotOf i j
    · subst e
      simp [partner_slot hj hij, inst_recvP, inst]
    · have : partner i k ≠ j := by intro h; apply e; rw [← h, hk]
      simp [e, this, hk, inst]

theorem sessionVars_mesh (d σ M roles i) (st : Pat) :
    inst d σ (meshP M (sessionVars roles.length) st (.app (.here (nameId (roleAt roles i))) [])) =
      meshTy M roles i (fun q => σ (.S (slotOf i q))) (inst d σ st) := by
  simp only [inst_meshP, sessionVars, List.map_map]
  refine Eq.trans ?_ (mesh_app_eq (G := fun k => σ (.S k)) ?_)
  · simp only [inst, instList, nameId_eq, roleAt_eq, nameTy]
    congr 2
  · intro k h1 _
    simp [slot_partner h1]

/-- The meshes of the two branches of `offer`. -/
theorem offer_left (d σ M roles i) :
    inst d σ (meshP M ((List.range' 1 (roles.length - 1)).map fun k => .var (.S k)) (.var (.R 1))
      (.app (.here (nameId (roleAt roles i))) [])) =
      meshTy M roles i (fun q => σ (.S (slotOf i q))) (σ (.R 1)) := by
  have := sessionVars_mesh d σ M roles i (.var (.R 1))
  simpa only [sessionVars, inst] using this

theorem offer_right (d σ M roles i) :
    inst d σ (meshP M ((List.range' roles.length (roles.length - 1)).map fun k => .var (.S k)) (.var (.R 2))
      (.app (.here (nameId (roleAt roles i))) [])) =
      meshTy M roles i (fun q => σ (.S (roles.length - 1 + slotOf i q))) (σ (.R 2)) := by
  simp only [inst_meshP, List.map_map]
  refine Eq.trans ?_ (mesh_app_eq (G := fun k => σ (.S (roles.length - 1 + k))) ?_)
  · simp only [inst, instList, nameId_eq, roleAt_eq, nameTy]
    congr 2
    apply List.ext_getElem
    · simp
    · intro k h1 h2
      simp only [List.length_map, List.length_range'] at h1
      simp [inst]
      congr 2; omega
  · intro k h1 _
    simp [slot_partner h1]

theorem offerBlock_self (d σ timed M roles i j) (hi : IsRole roles.length i) (hj : IsRole roles.length j) (hij : i ≠ j) :
    inst d σ (offerBlock timed M roles roles.length j i).self =
      meshTy M roles i (fun q => if q = j then recvTy timed (constVals σ)
          (eitherTy (meshTy M roles i (fun q => σ (.S (slotOf i q))) (σ (.R 1)))
            (meshTy M roles i (fun q => σ (.S (roles.length - 1 + slotOf i q))) (σ (.R 2)))) endTy
        else endTy) (allToTy (roleName roles j)) := by
  simp only [offerBlock, inst_meshP d σ M (List.map _ _) (.app _ [_, _]), List.map_map]
  refine Eq.trans ?_ (mesh_app_eq (G := fun k => inst d σ (if isComm i j k = true then
    recvP timed (.app .either [meshP M ((List.range' 1 (roles.length - 1)).map fun k => .var (.S k)) (.var (.R 1))
      (.app (.here (nameId (roleAt roles i))) []),
      meshP M ((List.range' roles.length (roles.length - 1)).map fun k => .var (.S k)) (.var (.R 2))
      (.app (.here (nameId (roleAt roles i))) [])]) (.app .fin []) else .app .fin [])) ?_)
  · simp only [inst, instList, allToId_eq, nameId_eq, roleAt_eq, allToTy, nameTy, roleEndTy]
    rfl
  · intro k h1 h2
    rw [Prop.isComm_iff hi hj hij h1]
    have hk := slot_partner (i := i) h1
    by_cases e : k = slotOf i j
    · subst e
      simp only [partner_slot hj hij, decide_true, if_true, inst_recvP]
      simp only [inst, instList, offer_left, offer_right, eitherTy, endTy]
    · have : partner i k ≠ j := by intro h; apply e; rw [← h, hk]
      simp [e, this, inst, instList, endTy]

theorem closeBlock_self (d σ M) (roles : List Str) :
    inst d σ (closeBlock M roles.length).self =
      .app (.here M) ((List.range' 1 (roles.length - 1)).map (fun _ => endTy) ++ [roleEndTy, σ .N]) := by
  simp [closeBlock, inst_meshP, inst, instList, endTy, roleEndTy, Function.comp_def]

theorem cancelBlock_self (d σ M) (roles : List Str) :
    inst d σ (cancelBlock M roles.length).self =
      .app (.here M) ((List.range' 1 (roles.length - 1)).map (fun k => σ (.S k)) ++ [σ (.R 0), σ .N]) := by
  simp [cancelBlock, inst_meshP, inst, sessionVars, Function.comp_def]

/-! ## Choices -/

theorem chooseRecvTy_is (n s j k : Nat) (right : Bool) (hs : IsRole n s) (hj : IsRole n j) (hjs : j ≠ s)
    (h1 : 1 ≤ k) (h2 : k ≤ n - 1) : chooseRecvTy n s right j k =
      some ⟨branchOff n right + pr n j (partner j k), chooseDual s j (partner j k)⟩ := by
  have := chooseRecvTy_eq n s 0 j 0 k right _ hs hj hjs
    (by rw [idealMesh_slot, if_pos ⟨h1, h2⟩, idealEP_at])
  simpa [EP.ty] using this

theorem branchP_is (M roles s right j) (hs : IsRole roles.length s) (hj : IsRole roles.length j) (hjs : j ≠ s) :
    branchP M roles roles.length s right j = some (meshP M
      ((List.range' 1 (roles.length - 1)).map fun k =>
        tyP ⟨branchOff roles.length right + pr roles.length j (partner j k), chooseDual s j (partner j k)⟩)
      (.var (.R (chooseRecvStack s right j))) (.app (.here (nameId (roleAt roles j))) [])) := by
  unfold branchP
  rw [mapM_some _ (fun k => (⟨branchOff roles.length right + pr roles.length j (partner j k),
    chooseDual s j (partner j k)⟩ : TyExp))]
  · simp [Function.comp_def]
  · intro k hk
    rw [mem_range'] at hk
    exact chooseRecvTy_is _ _ _ _ _ hs hj hjs hk.1 (by omega)

/-- The session of role `j` with role `q` in a branch of the choice of role `s`. -/
def branchF (d : RTy → RTy) (σ : TVar → RTy) (n s : Nat) (right : Bool) (j q : Nat) : RTy :=
  if chooseDual s j q then d (σ (.S (branchOff n right + pr n j q))) else σ (.S (branchOff n right + pr n j q))

theorem inst_tyP (d σ t) : inst d σ (tyP t) = if t.dual then d (σ (.S t.sess)) else σ (.S t.sess) := by
  unfold tyP; split <;> simp [inst]

theorem branchP_inst (d σ M roles s right j) (hs : IsRole roles.length s) (hj : IsRole roles.length j) (hjs : j ≠ s) :
    (branchP M roles roles.length s right j).map (inst d σ) =
      some (meshTy M roles j (branchF d σ roles.length s right j) (σ (.R (chooseRecvStack s right j)))) := by
  rw [branchP_is M roles s right j hs hj hjs, Option.map_some]
  congr 1
  simp only [inst_meshP, List.map_map]
  refine Eq.trans ?_ (mesh_app_eq (G := fun k => branchF d σ roles.length s right j (partner j k)) ?_)
  · simp only [inst, instList, nameId_eq, roleAt_eq, nameTy]
    congr 2
    apply List.map_congr_left
    intro k _
    simp only [Function.comp, inst_tyP, branchF]
  · intro k _ _; rfl

theorem chooseSenderTys_is (n s : Nat) (right : Bool) (hs : IsRole n s) :
    chooseSenderTys n s right = some ((List.range' 1 (n - 1)).map fun k =>
      ⟨branchOff n right + pr n s (partner s k), true⟩) := by
  unfold chooseSenderTys
  have hf : (List.range' 1 n).filter (fun j => decide (j ≠ s)) = (List.range' 1 (n - 1)).map (partner s) := by
    rw [← filter_roles n s hs]
    congr 1; funext j; simp only [ne_eq, eq_comm]
  rw [rangeIncl_one, hf, List.mapM_map]
  apply mapM_some
  intro k hk
  rw [mem_range'] at hk
  have hp := partner_role hs hk.1 (by omega : k ≤ n - 1)
  obtain ⟨l, c, hl, -⟩ := lookupMatrix n s k hs hk.1 (by omega)
  simp only [Function.comp]
  rw [sub_slot hp.2, slot_partner hk.1, hl]

/-- The branch as a written type. -/
def branchPat (M : Str) (roles : List Str) (s : Nat) (right : Bool) (j : Nat) : Pat :=
  meshP M ((List.range' 1 (roles.length - 1)).map fun k =>
        tyP ⟨branchOff roles.length right + pr roles.length j (partner j k), chooseDual s j (partner j k)⟩)
      (.var (.R (chooseRecvStack s right j))) (.app (.here (nameId (roleAt roles j))) [])

/-- The block of `choose`, with its lookups done. -/
def choosePat (timed : Bool) (M : Str) (roles : List Str) (s : Nat) : Block :=
  let n := roles.length
  let name : Pat := .app (.here (nameId (roleAt roles s))) []
  { params := sessionParams ((n - 1) * n) ++ (rangeIncl 1 (2 * n)).map .R ++ constParams timed
    self := meshP M ((List.range' 1 (n - 1)).map fun k => sendP timed (.app .either
        [branchPat M roles s false (partner s k), branchPat M roles s true (partner s k)]) (.app .fin []))
      (.app (.here (toAllId (roleAt roles s))) [.var (.R (2 * n - 1)), .var (.R (2 * n))]) name
    methods := [(.chooseLeft, [meshP M ((List.range' 1 (n - 1)).map fun k =>
                  tyP ⟨branchOff n false + pr n s (partner s k), true⟩) (.var (.R (2 * n - 1))) name]),
                (.chooseRight, [meshP M ((List.range' 1 (n - 1)).map fun k =>
                  tyP ⟨branchOff n true + pr n s (partner s k), true⟩) (.var (.R (2 * n))) name])] }

theorem chooseBlock_is (timed M roles s) (hs : IsRole roles.length s) :
    chooseBlock timed M roles roles.length s = some (choosePat timed M roles s) := by
  unfold chooseBlock
  rw [rangeIncl_one, filter_roles _ _ hs, List.mapM_map,
    mapM_some _ (fun k => sendP timed (.app .either
        [branchPat M roles s false (partner s k), branchPat M roles s true (partner s k)]) (.app .fin [])),
    chooseSenderTys_is _ _ _ hs, chooseSenderTys_is _ _ _ hs]
  · simp only [choosePat, List.map_map, Function.comp_def]
  · intro k hk
    rw [mem_range'] at hk
    have hp := partner_role hs hk.1 (by omega : k ≤ roles.length - 1)
    simp only [Function.comp, chooseSessionP]
    rw [branchP_is _ _ _ _ _ hs hp.1 hp.2, branchP_is _ _ _ _ _ hs hp.1 hp.2]
    rfl

theorem branchPat_inst (d σ M roles s right j) (hs : IsRole roles.length s) (hj : IsRole roles.length j) (hjs : j ≠ s) :
    inst d σ (branchPat M roles s right j) =
      meshTy M roles j (branchF d σ roles.length s right j) (σ (.R (chooseRecvStack s right j))) := by
  have := branchP_inst d σ M roles s right j hs hj hjs
  rw [branchP_is M roles s right j hs hj hjs, Option.map_some] at this
  exact Option.some.inj this

theorem choosePat_self (d σ timed M roles s) (hs : IsRole roles.length s) :
    inst d σ (choosePat timed M roles s).self =
      meshTy M roles s (fun q => sendTy timed (constVals σ) (eitherTy
          (meshTy M roles q (branchF d σ roles.length s false q) (σ (.R (chooseRecvStack s false q))))
          (meshTy M roles q (branchF d σ roles.length s true q) (σ (.R (chooseRecvStack s true q))))) endTy)
        (toAllTy (roleName roles s) (σ (.R (2 * roles.length - 1))) (σ (.R (2 * roles.length)))) := by
  simp only [choosePat, inst_meshP d σ M (List.map _ _) (.app _ _), List.map_map]
  refine Eq.trans ?_ (mesh_app_eq (G := fun k => inst d σ (sendP timed (.app .either
        [branchPat M roles s false (partner s k), branchPat M roles s true (partner s k)]) (.app .fin []))) ?_)
  · simp only [inst, instList, toAllId_eq, nameId_eq, roleAt_eq, toAllTy, nameTy]
    rfl
  · intro k h1 h2
    have hp := partner_role hs h1 h2
    simp only [inst_sendP]
    simp only [inst, instList, branchPat_inst d σ M roles s _ _ hs hp.1 hp.2, eitherTy, endTy]

theorem choose_result (d σ M roles s right r) :
    inst d σ (meshP M ((List.range' 1 (roles.length - 1)).map fun k =>
      tyP ⟨branchOff roles.length right + pr roles.length s (partner s k), true⟩) (.var (.R r))
      (.app (.here (nameId (roleAt roles s))) [])) =
    meshTy M roles s (fun q => d (σ (.S (branchOff roles.length right + pr roles.length s q)))) (σ (.R r)) := by
  simp only [inst_meshP, List.map_map]
  refine Eq.trans ?_ (mesh_app_eq (G := fun k => d (σ (.S (branchOff roles.length right +
    pr roles.length s (partner s k))))) ?_)
  · simp only [inst, instList, nameId_eq, roleAt_eq, nameTy]
    congr 2
  · intro k _ _; rfl

/-! ## Which blocks are emitted -/

theorem mem_pairs {n a b : Nat} : (a, b) ∈ pairs n ↔ IsRole n a ∧ IsRole n b ∧ a ≠ b := by
  simp only [pairs, rangeIncl_one, List.mem_flatMap, List.mem_map, List.mem_filter, mem_range', Prod.mk.injEq, IsRole,
    decide_eq_true_eq]
  constructor
  · rintro ⟨x, hx, y, ⟨hy, hne⟩, rfl, rfl⟩; exact ⟨by omega, by omega, hne⟩
  · rintro ⟨h1, h2, h3⟩; exact ⟨a, by omega, b, ⟨by omega, h3⟩, rfl, rfl⟩

/-- The blocks of one mesh. -/
def Emitted (timed : Bool) (M : Str) (roles : List Str) (b : Block) : Prop :=
  (∃ i j, IsRole roles.length i ∧ IsRole roles.length j ∧ i ≠ j ∧
    (b = sendBlock timed M roles roles.length i j ∨ b = recvBlock timed M roles roles.length i j ∨
      b = recvFromAllBlock timed M roles roles.length i j ∨ b = offerBlock timed M roles roles.length j i)) ∨
  (∃ s, IsRole roles.length s ∧ b = choosePat timed M roles s) ∨
  b = closeBlock M roles.length ∨ b = cancelBlock M roles.length

/-- The items of one mesh. -/
def coreItems (timed : Bool) (M : Str) (roles : List Str) : List Item :=
  let n := roles.length
  [.struct M] ++ roleStructs roles ++ nameStructs roles
      ++ (pairs n).map (fun p => .block (sendBlock timed M roles n p.1 p.2))
      ++ (pairs n).map (fun p => .block (recvBlock timed M roles n p.1 p.2))
      ++ (pairs n).map (fun p => .block (recvFromAllBlock timed M roles n p.1 p.2))
      ++ (pairs n).map (fun p => .block (offerBlock timed M roles n p.2 p.1))
      ++ (List.range' 1 n).map (fun s => .block (choosePat timed M roles s))
      ++ [.block (closeBlock M n), .block (cancelBlock M n)]

theorem core_is (timed M roles) : core timed M roles = some (coreItems timed M roles) := by
  unfold core
  dsimp only
  rw [rangeIncl_one, mapM_some _ (fun s => choosePat timed M roles s)]
  · simp [coreItems, Function.comp_def]
  · intro s hs
    rw [mem_range'] at hs
    exact chooseBlock_is _ _ _ _ (by unfold IsRole; omega)

theorem mem_core {timed M roles b} : Item.block b ∈ coreItems timed M roles ↔ Emitted timed M roles b := by
  have h1 : ∀ (f : Nat × Nat → Block), Item.block b ∈ (pairs roles.length).map (fun p => Item.block (f p)) ↔
      ∃ i j, IsRole roles.length i ∧ IsRole roles.length j ∧ i ≠ j ∧ b = f (i, j) := by
    intro f
    simp only [List.mem_map, Prod.exists, mem_pairs, Item.block.injEq]
    constructor
    · rintro ⟨i, j, ⟨a, b, c⟩, rfl⟩; exact ⟨i, j, a, b, c, rfl⟩
    · rintro ⟨i, j, a, b, c, rfl⟩; exact ⟨i, j, ⟨a, b, c⟩, rfl⟩
  have h2 : Item.block b ∉ roleStructs roles := by simp [roleStructs]
  have h3 : Item.block b ∉ nameStructs roles := by simp [nameStructs]
  have h4 : Item.block b ∈ (List.range' 1 roles.length).map (fun s => Item.block (choosePat timed M roles s)) ↔
      ∃ s, IsRole roles.length s ∧ b = choosePat timed M roles s := by
    simp only [List.mem_map, mem_range', Item.block.injEq]
    constructor
    · rintro ⟨s, h, rfl⟩; exact ⟨s, by unfold IsRole; omega, rfl⟩
    · rintro ⟨s, h, rfl⟩; exact ⟨s, by unfold IsRole at h; omega, rfl⟩
  unfold coreItems Emitted
  simp only [List.mem_append, h1, h2, h3, h4, List.mem_cons, List.not_mem_nil, or_false, Item.block.injEq, reduceCtorEq,
    false_or]
  constructor
  · rintro (((((⟨i, j, a, b, c, e⟩ | ⟨i, j, a, b, c, e⟩) | ⟨i, j, a, b, c, e⟩) | ⟨i, j, a, b, c, e⟩) | h) | h)
    · exact .inl ⟨i, j, a, b, c, .inl e⟩
    · exact .inl ⟨i, j, a, b, c, .inr (.inl e)⟩
    · exact .inl ⟨i, j, a, b, c, .inr (.inr (.inl e))⟩
    · exact .inl ⟨i, j, a, b, c, .inr (.inr (.inr e))⟩
    · exact .inr (.inl h)
    · exact .inr (.inr h)
  · rintro (⟨i, j, a, b, c, e | e | e | e⟩ | h | h)
    · exact .inl (.inl (.inl (.inl (.inl ⟨i, j, a, b, c, e⟩))))
    · exact .inl (.inl (.inl (.inl (.inr ⟨i, j, a, b, c, e⟩))))
    · exact .inl (.inl (.inl (.inr ⟨i, j, a, b, c, e⟩)))
    · exact .inl (.inl (.inr ⟨i, j, a, b, c, e⟩))
    · exact .inl (.inr h)
    · exact .inr h

theorem block_tail (kind roles b) : Item.block b ∉ tailItems kind roles := by
  cases kind <;> simp [tailItems, chooseMacros]

theorem expand_is (kind M roles) : expand kind M roles = some (coreItems kind.timed M roles ++ tailItems kind roles) := by
  unfold expand; rw [core_is]

theorem mem_expand {kind M roles items} (h : expand kind M roles = some items) (b : Block) :
    Item.block b ∈ items ↔ Emitted kind.timed M roles b := by
  rw [expand_is] at h
  injection h with h
  subst h
  rw [List.mem_append, mem_core]
  simp [block_tail]

/-! ## Which calls exist -/

/-- The calls offered by the blocks of one mesh. -/
def Offers (W : Traits) (timed : Bool) (M : Str) (roles : List Str) (m : Method) (t : RTy) (next : List RTy) : Prop :=
  ∃ b, Emitted timed M roles b ∧ ∃ ps, (m, ps) ∈ b.methods ∧ ∃ σ : TVar → RTy,
    (∀ v ∈ b.params, W.holds v (σ v)) ∧ inst W.dual σ b.self = t ∧ ps.map (inst W.dual σ) = next

theorem has_iff {W items timed M roles} (h : ∀ b, Item.block b ∈ items ↔ Emitted timed M roles b) {m t next} :
    Has W items m t next ↔ Offers W timed M roles m t next := by
  unfold Has Offers
  simp only [h]

theorem constVals_getD (cs : List RTy) (h : cs.length = 6) (σ : TVar → RTy) (hσ : ∀ k, σ (.C k) = cs.getD k endTy) :
    constVals σ = cs := by
  unfold constVals
  apply List.ext_getElem
  · simp [h]
  · intro k h1 h2
    simp [hσ, List.getD, h2]

theorem mem_sessionParams {m k} : TVar.S k ∈ sessionParams m ↔ 1 ≤ k ∧ k ≤ m := by
  simp [sessionParams]; omega

theorem not_mem_sessionParams {m v} (h : ∀ k, v ≠ TVar.S k) : v ∉ sessionParams m := by
  simp only [sessionParams, List.mem_map, not_exists, not_and]
  intro k _ e; exact h k e.symm

theorem holds_const (W : Traits) (timed v t) (h : v ∈ constParams timed) : W.holds v t := by
  unfold constParams at h
  split at h
  · simp only [List.mem_map] at h
    obtain ⟨k, _, rfl⟩ := h
    exact trivial
  · cases h

/-- Bounds of blocks with the sessions `S1 .. S{m}` and further parameters. -/
theorem bounds_iff (W : Traits) (timed m) (l : List TVar) (σ : TVar → RTy) :
    (∀ v ∈ sessionParams m ++ l ++ constParams timed, W.holds v (σ v)) ↔
      (∀ k, 1 ≤ k → k ≤ m → W.session (σ (.S k))) ∧ ∀ v ∈ l, W.holds v (σ v) := by
  constructor
  · intro h
    refine ⟨fun k h1 h2 => h (.S k) ?_, fun v hv => h v (by simp [hv])⟩
    simp only [List.mem_append]
    exact .inl (.inl (mem_sessionParams.2 ⟨h1, h2⟩))
  · rintro ⟨h1, h2⟩ v hv
    simp only [List.mem_append] at hv
    rcases hv with (hv | hv) | hv
    · simp only [sessionParams, List.mem_map, mem_range'] at hv
      obtain ⟨k, hk, rfl⟩ := hv
      exact h1 k hk.1 (by omega)
    · exact h2 v hv
    · exact holds_const W timed v _ hv

/-- All sessions of a mesh, by partner. -/
theorem sessions_by_partner {n i : Nat} (hi : IsRole n i) (P : Nat → Prop) :
    (∀ k, 1 ≤ k → k ≤ n - 1 → P k) ↔ ∀ q, IsRole n q → q ≠ i → P (slotOf i q) := by
  constructor
  · intro h q hq hne
    have := slot_range hi hq (Ne.symm hne)
    exact h _ this.1 this.2
  · intro h k h1 h2
    have hp := partner_role hi h1 h2
    have := h _ hp.1 hp.2
    rwa [slot_partner h1] at this

theorem offers_send {W timed M roles t next} : Offers W timed M roles .send t next ↔
    ∃ i j F cs T S R, IsRole roles.length i ∧ IsRole roles.length j ∧ i ≠ j ∧ cs.length = 6 ∧
      F j = sendTy timed cs T S ∧ t = meshTy M roles i F (roleTy (roleName roles j) R) ∧
      W.payload T ∧ W.session S ∧ W.role R ∧ (∀ q, IsRole roles.length q → q ≠ i → q ≠ j → W.session (F q)) ∧
      next = [meshTy M roles i (fun q => if q = j then S else F q) R] := by
  constructor
  · rintro ⟨b, hb, ps, hm, σ, hσ, rfl, rfl⟩
    rcases hb with ⟨i, j, hi, hj, hij, rfl | rfl | rfl | rfl⟩ | ⟨s, _, rfl⟩ | rfl | rfl
    · simp only [sendBlock, List.mem_singleton, Prod.mk.injEq, true_and] at hm
      subst hm
      rw [show (sendBlock timed M roles roles.length i j).params =
        sessionParams (roles.length - 1) ++ [.R 0, .T] ++ constParams timed from rfl, bounds_iff,
        sessions_by_partner hi] at hσ
      refine ⟨i, j, _, constVals σ, σ .T, σ (.S (slotOf i j)), σ (.R 0), hi, hj, hij, constVals_length σ, ?_,
        sendBlock_self W.dual σ timed M roles i j hi hj hij, hσ.2 .T (by simp), hσ.1 j hj (Ne.symm hij),
        hσ.2 (.R 0) (by simp), ?_, ?_⟩
      · simp
      · intro q hq h1 h2
        simp only [h2, if_false]
        exact hσ.1 q hq h1
      · simp only [List.map_cons, List.map_nil, sessionVars_mesh]
        congr 1
        simp only [inst]
        apply meshTy_congr _ hi
        intro q _ _
        by_cases e : q = j
        · simp [e]
        · simp [e]
    all_goals simp [recvBlock, recvFromAllBlock, offerBlock, choosePat, closeBlock, cancelBlock] at hm
  · rintro ⟨i, j, F, cs, T, S, R, hi, hj, hij, hcs, hF, rfl, hT, hS, hR, hq, rfl⟩
    let σ : TVar → RTy := fun v => match v with
      | .S k => if k = slotOf i j then S else F (partner i k)
      | .R _ => R
      | .T => T
      | .N => endTy
      | .C k => cs.getD k endTy
    refine ⟨_, .inl ⟨i, j, hi, hj, hij, .inl rfl⟩, _, by simp only [sendBlock]; exact List.mem_singleton.2 rfl, σ, ?_, ?_, ?_⟩
    · rw [show (sendBlock timed M roles roles.length i j).params =
        sessionParams (roles.length - 1) ++ [.R 0, .T] ++ constParams timed from rfl, bounds_iff,
        sessions_by_partner hi]
      refine ⟨?_, ?_⟩
      · intro q hq' hne
        by_cases e : q = j
        · simp [σ, e, hS]
        · have : slotOf i q ≠ slotOf i j := fun h => e (slotOf_inj (Ne.symm hne) hij h)
          simp only [σ, this, if_false, partner_slot hq' (Ne.symm hne)]
          exact hq q hq' hne e
      · intro v hv
        simp only [List.mem_cons, List.not_mem_nil, or_false] at hv
        rcases hv with rfl | rfl
        · exact hR
        · exact hT
    · rw [sendBlock_self W.dual σ timed M roles i j hi hj hij, constVals_getD cs hcs σ (fun _ => rfl)]
      apply meshTy_congr _ hi
      intro q hq' hne
      by_cases e : q = j
      · simp [σ, e, hF]
      · have : slotOf i q ≠ slotOf i j := fun h => e (slotOf_inj (Ne.symm hne) hij h)
        simp [σ, e, this, partner_slot hq' (Ne.symm hne)]
    · simp only [List.map_cons, List.map_nil, sessionVars_mesh]
      congr 1
      simp only [inst]
      apply meshTy_congr _ hi
      intro q hq' hne
      by_cases e : q = j
      · simp [σ, e]
      · have : slotOf i q ≠ slotOf i j := fun h => e (slotOf_inj (Ne.symm hne) hij h)
        simp [σ, e, this, partner_slot hq' (Ne.symm hne)]

theorem offers_recv {W timed M roles t next} : Offers W timed M roles .recv t next ↔
    ∃ i j F cs T S R, IsRole roles.length i ∧ IsRole roles.length j ∧ i ≠ j ∧ cs.length = 6 ∧
      F j = recvTy timed cs T S ∧ t = meshTy M roles i F (roleTy (roleName roles j) R) ∧
      W.payload T ∧ W.session S ∧ W.role R ∧ (∀ q, IsRole roles.length q → q ≠ i → q ≠ j → W.session (F q)) ∧
      next = [meshTy M roles i (fun q => if q = j then S else F q) R] := by
  constructor
  · rintro ⟨b, hb, ps, hm, σ, hσ, rfl, rfl⟩
    rcases hb with ⟨i, j, hi, hj, hij, rfl | rfl | rfl | rfl⟩ | ⟨s, _, rfl⟩ | rfl | rfl
    · simp [sendBlock] at hm
    · simp only [recvBlock, List.mem_singleton, Prod.mk.injEq, true_and] at hm
      subst hm
      rw [show (recvBlock timed M roles roles.length i j).params =
        sessionParams (roles.length - 1) ++ [.R 0, .T] ++ constParams timed from rfl, bounds_iff,
        sessions_by_partner hi] at hσ
      refine ⟨i, j, _, constVals σ, σ .T, σ (.S (slotOf i j)), σ (.R 0), hi, hj, hij, constVals_length σ, ?_,
        recvBlock_self W.dual σ timed M roles i j hi hj hij, hσ.2 .T (by simp), hσ.1 j hj (Ne.symm hij),
        hσ.2 (.R 0) (by simp), ?_, ?_⟩
      · simp
      · intro q hq h1 h2
        simp only [h2, if_false]
        exact hσ.1 q hq h1
      · simp only [List.map_cons, List.map_nil, sessionVars_mesh]
        congr 1
        simp only [inst]
        apply meshTy_congr _ hi
        intro q _ _
        by_cases e : q = j
        · simp [e]
        · simp [e]
    all_goals simp [sendBlock, recvFromAllBlock, offerBlock, choosePat, closeBlock, cancelBlock] at hm
  · rintro ⟨i, j, F, cs, T, S, R, hi, hj, hij, hcs, hF, rfl, hT, hS, hR, hq, rfl⟩
    let σ : TVar → RTy := fun v => match v with
      | .S k => if k = slotOf i j then S else F (partner i k)
      | .R _ => R
      | .T => T
      | .N => endTy
      | .C k => cs.getD k endTy
    refine ⟨_, .inl ⟨i, j, hi, hj, hij, .inr (.inl rfl)⟩, _, by simp only [recvBlock]; exact List.mem_singleton.2 rfl, σ, ?_, ?_, ?_⟩
    · rw [show (recvBlock timed M roles roles.length i j).params =
        sessionParams (roles.length - 1) ++ [.R 0, .T] ++ constParams timed from rfl, bounds_iff,
        sessions_by_partner hi]
      refine ⟨?_, ?_⟩
      · intro q hq' hne
        by_cases e : q = j
        · simp [σ, e, hS]
        · have : slotOf i q ≠ slotOf i j := fun h => e (slotOf_inj (Ne.symm hne) hij h)
          simp only [σ, this, if_false, partner_slot hq' (Ne.symm hne)]
          exact hq q hq' hne e
      · intro v hv
        simp only [List.mem_cons, List.not_mem_nil, or_false] at hv
        rcases hv with rfl | rfl
        · exact hR
        · exact hT
    · rw [recvBlock_self W.dual σ timed M roles i j hi hj hij, constVals_getD cs hcs σ (fun _ => rfl)]
      apply meshTy_congr _ hi
      intro q hq' hne
      by_cases e : q = j
      · simp [σ, e, hF]
      · have : slotOf i q ≠ slotOf i j := fun h => e (slotOf_inj (Ne.symm hne) hij h)
        simp [σ, e, this, partner_slot hq' (Ne.symm hne)]
    · simp only [List.map_cons, List.map_nil, sessionVars_mesh]
      congr 1
      simp only [inst]
      apply meshTy_congr _ hi
      intro q hq' hne
      by_cases e : q = j
      · simp [σ, e]
      · have : slotOf i q ≠ slotOf i j := fun h => e (slotOf_inj (Ne.symm hne) hij h)
        simp [σ, e, this, partner_slot hq' (Ne.symm hne)]

theorem offers_recvFromAll {W timed M roles t next} : Offers W timed M roles .recvFromAll t next ↔
    ∃ i j F cs T S, IsRole roles.length i ∧ IsRole roles.length j ∧ i ≠ j ∧ cs.length = 6 ∧
      F j = recvTy timed cs T S ∧ t = meshTy M roles i F (allToTy (roleName roles j)) ∧
      W.payload T ∧ W.session S ∧ (∀ q, IsRole roles.length q → q ≠ i → q ≠ j → W.session (F q)) ∧
      next = [meshTy M roles i (fun q => if q = j then S else F q) roleEndTy] := by
  constructor
  · rintro ⟨b, hb, ps, hm, σ, hσ, rfl, rfl⟩
    rcases hb with ⟨i, j, hi, hj, hij, rfl | rfl | rfl | rfl⟩ | ⟨s, _, rfl⟩ | rfl | rfl
    · simp [sendBlock] at hm
    · simp [recvBlock] at hm
    · simp only [recvFromAllBlock, List.mem_singleton, Prod.mk.injEq, true_and] at hm
      subst hm
      rw [show (recvFromAllBlock timed M roles roles.length i j).params =
        sessionParams (roles.length - 1) ++ [.T] ++ constParams timed from rfl, bounds_iff,
        sessions_by_partner hi] at hσ
      refine ⟨i, j, _, constVals σ, σ .T, σ (.S (slotOf i j)), hi, hj, hij, constVals_length σ, ?_,
        recvFromAllBlock_self W.dual σ timed M roles i j hi hj hij, hσ.2 .T (by simp), hσ.1 j hj (Ne.symm hij),
        ?_, ?_⟩
      · simp
      · intro q hq h1 h2
        simp only [h2, if_false]
        exact hσ.1 q hq h1
      · simp only [List.map_cons, List.map_nil, sessionVars_mesh]
        congr 1
        simp only [inst, instList]
        apply meshTy_congr _ hi
        intro q _ _
        by_cases e : q = j
        · simp [e]
        · simp [e]
    all_goals simp [sendBlock, offerBlock, choosePat, closeBlock, cancelBlock] at hm
  · rintro ⟨i, j, F, cs, T, S, hi, hj, hij, hcs, hF, rfl, hT, hS, hq, rfl⟩
    let σ : TVar → RTy := fun v => match v with
      | .S k => if k = slotOf i j then S else F (partner i k)
      | .R _ => endTy
      | .T => T
      | .N => endTy
      | .C k => cs.getD k endTy
    refine ⟨_, .inl ⟨i, j, hi, hj, hij, .inr (.inr (.inl rfl))⟩, _, by simp only [recvFromAllBlock]; exact List.mem_singleton.2 rfl, σ, ?_, ?_, ?_⟩
    · rw [show (recvFromAllBlock timed M roles roles.length i j).params =
        sessionParams (roles.length - 1) ++ [.T] ++ constParams timed from rfl, bounds_iff,
        sessions_by_partner hi]
      refine ⟨?_, ?_⟩
      · intro q hq' hne
        by_cases e : q = j
        · simp [σ, e, hS]
        · have : slotOf i q ≠ slotOf i j := fun h => e (slotOf_inj (Ne.symm hne) hij h)
          simp only [σ, this, if_false, partner_slot hq' (Ne.symm hne)]
          exact hq q hq' hne e
      · intro v hv
        simp only [List.mem_cons, List.not_mem_nil, or_false] at hv
        rcases hv with rfl
        exact hT
    · rw [recvFromAllBlock_self W.dual σ timed M roles i j hi hj hij, constVals_getD cs hcs σ (fun _ => rfl)]
      apply meshTy_congr _ hi
      intro q hq' hne
      by_cases e : q = j
      · simp [σ, e, hF]
      · have : slotOf i q ≠ slotOf i j := fun h => e (slotOf_inj (Ne.symm hne) hij h)
        simp [σ, e, this, partner_slot hq' (Ne.symm hne)]
    · simp only [List.map_cons, List.map_nil, sessionVars_mesh]
      congr 1
      simp only [inst, instList]
      apply meshTy_congr _ hi
      intro q hq' hne
      by_cases e : q = j
      · simp [σ, e]
      · have : slotOf i q ≠ slotOf i j := fun h => e (slotOf_inj (Ne.symm hne) hij h)
        simp [σ, e, this, partner_slot hq' (Ne.symm hne)]

theorem offers_offer {W timed M roles t next} : Offers W timed M roles .offer t next ↔
    ∃ i j F cs L R SL SR, IsRole roles.length i ∧ IsRole roles.length j ∧ i ≠ j ∧ cs.length = 6 ∧
      F j = recvTy timed cs (eitherTy (meshTy M roles i L SL) (meshTy M roles i R SR)) endTy ∧
      (∀ q, IsRole roles.length q → q ≠ i → q ≠ j → F q = endTy) ∧
      t = meshTy M roles i F (allToTy (roleName roles j)) ∧
      (∀ q, IsRole roles.length q → q ≠ i → W.session (L q)) ∧ (∀ q, IsRole roles.length q → q ≠ i → W.session (R q)) ∧
      W.role SL ∧ W.role SR ∧ next = [meshTy M roles i L SL, meshTy M roles i R SR] := by
  constructor
  · rintro ⟨b, hb, ps, hm, σ, hσ, rfl, rfl⟩
    rcases hb with ⟨i, j, hi, hj, hij, rfl | rfl | rfl | rfl⟩ | ⟨s, _, rfl⟩ | rfl | rfl
    · simp [sendBlock] at hm
    · simp [recvBlock] at hm
    · simp [recvFromAllBlock] at hm
    · simp only [offerBlock, List.mem_singleton, Prod.mk.injEq, true_and] at hm
      subst hm
      rw [show (offerBlock timed M roles roles.length j i).params =
        sessionParams (2 * roles.length - 2) ++ [.R 1, .R 2] ++ constParams timed from rfl, bounds_iff] at hσ
      refine ⟨i, j, _, constVals σ, fun q => σ (.S (slotOf i q)), fun q => σ (.S (roles.length - 1 + slotOf i q)), σ (.R 1), σ (.R 2),
        hi, hj, hij, constVals_length σ, ?_, ?_,
        offerBlock_self W.dual σ timed M roles i j hi hj hij, ?_, ?_, hσ.2 (.R 1) (by simp), hσ.2 (.R 2) (by simp), ?_⟩
      · simp only [if_true]
      · intro q _ _ h; simp [h]
      · intro q hq hne
        have := slot_range hi hq (Ne.symm hne)
        exact hσ.1 _ this.1 (by omega)
      · intro q hq hne
        have := slot_range hi hq (Ne.symm hne)
        exact hσ.1 _ (by omega) (by omega)
      · simp only [List.map_cons, List.map_nil, offer_left, offer_right]
    all_goals simp [choosePat, closeBlock, cancelBlock] at hm
  · rintro ⟨i, j, F, cs, L, R, SL, SR, hi, hj, hij, hcs, hF, hE, rfl, hL, hR, hSL, hSR, rfl⟩
    let σ : TVar → RTy := fun v => match v with
      | .S k => if k ≤ roles.length - 1 then L (partner i k) else R (partner i (k - (roles.length - 1)))
      | .R k => if k = 1 then SL else SR
      | .T => endTy
      | .N => endTy
      | .C k => cs.getD k endTy
    have eL : meshTy M roles i (fun q => σ (.S (slotOf i q))) (σ (.R 1)) = meshTy M roles i L SL := by
      simp only [σ, if_true]
      apply meshTy_congr _ hi
      intro q hq hne
      have := slot_range hi hq (Ne.symm hne)
      rw [if_pos this.2, partner_slot hq (Ne.symm hne)]
    have eR : meshTy M roles i (fun q => σ (.S (roles.length - 1 + slotOf i q))) (σ (.R 2)) = meshTy M roles i R SR := by
      simp only [σ, Nat.reduceEqDiff, if_false]
      apply meshTy_congr _ hi
      intro q hq hne
      have := slot_range hi hq (Ne.symm hne)
      rw [if_neg (by omega), Nat.add_sub_cancel_left, partner_slot hq (Ne.symm hne)]
    refine ⟨_, .inl ⟨i, j, hi, hj, hij, .inr (.inr (.inr rfl))⟩, _,
      by simp only [offerBlock]; exact List.mem_singleton.2 rfl, σ, ?_, ?_, ?_⟩
    · rw [show (offerBlock timed M roles roles.length j i).params =
        sessionParams (2 * roles.length - 2) ++ [.R 1, .R 2] ++ constParams timed from rfl, bounds_iff]
      refine ⟨?_, ?_⟩
      · intro k h1 h2
        by_cases e : k ≤ roles.length - 1
        · simp only [σ, e, if_true]
          have := partner_role hi h1 e
          exact hL _ this.1 this.2
        · simp only [σ, e, if_false]
          have := partner_role (k := k - (roles.length - 1)) hi (by omega) (by omega)
          exact hR _ this.1 this.2
      · intro v hv
        simp only [List.mem_cons, List.not_mem_nil, or_false] at hv
        rcases hv with rfl | rfl
        · exact hSL
        · exact hSR
    · rw [offerBlock_self W.dual σ timed M roles i j hi hj hij, constVals_getD cs hcs σ (fun _ => rfl), eL, eR]
      apply meshTy_congr _ hi
      intro q hq' hne
      by_cases e : q = j
      · simp [e, hF]
      · simp [e, hE q hq' hne e]
    · simp only [List.map_cons, List.map_nil, offer_left, offer_right, eL, eR]

theorem offers_close {W timed M roles t next} : Offers W timed M roles .close t next ↔
    ∃ N, W.name N ∧ next = [] ∧
      t = .app (.here M) ((List.range' 1 (roles.length - 1)).map (fun _ => endTy) ++ [roleEndTy, N]) := by
  constructor
  · rintro ⟨b, hb, ps, hm, σ, hσ, rfl, rfl⟩
    rcases hb with ⟨i, j, hi, hj, hij, rfl | rfl | rfl | rfl⟩ | ⟨s, _, rfl⟩ | rfl | rfl
    · simp [sendBlock] at hm
    · simp [recvBlock] at hm
    · simp [recvFromAllBlock] at hm
    · simp [offerBlock] at hm
    · simp [choosePat] at hm
    · simp only [closeBlock, List.mem_singleton, Prod.mk.injEq, true_and] at hm
      subst hm
      exact ⟨σ .N, hσ .N (by simp [closeBlock]), rfl, closeBlock_self W.dual σ M roles⟩
    · simp [cancelBlock] at hm
  · rintro ⟨N, hN, rfl, rfl⟩
    refine ⟨_, .inr (.inr (.inl rfl)), [], by simp [closeBlock], fun _ => N, ?_, closeBlock_self _ _ _ _, rfl⟩
    intro v hv
    simp only [closeBlock, List.mem_singleton] at hv
    subst hv
    exact hN

theorem offers_cancel {W timed M roles t next} : Offers W timed M roles .cancel t next ↔
    ∃ (F : Nat → RTy) (R N : RTy), (∀ k, 1 ≤ k → k ≤ roles.length - 1 → W.session (F k)) ∧ W.role R ∧ W.name N ∧ next = [] ∧
      t = .app (.here M) ((List.range' 1 (roles.length - 1)).map F ++ [R, N]) := by
  constructor
  · rintro ⟨b, hb, ps, hm, σ, hσ, rfl, rfl⟩
    rcases hb with ⟨i, j, hi, hj, hij, rfl | rfl | rfl | rfl⟩ | ⟨s, _, rfl⟩ | rfl | rfl
    · simp [sendBlock] at hm
    · simp [recvBlock] at hm
    · simp [recvFromAllBlock] at hm
    · simp [offerBlock] at hm
    · simp [choosePat] at hm
    · simp [closeBlock] at hm
    · simp only [cancelBlock, List.mem_singleton, Prod.mk.injEq, true_and] at hm
      subst hm
      refine ⟨fun k => σ (.S k), σ (.R 0), σ .N, ?_, hσ (.R 0) (by simp [cancelBlock]), hσ .N (by simp [cancelBlock]), rfl,
        cancelBlock_self W.dual σ M roles⟩
      intro k h1 h2
      exact hσ (.S k) (by simp only [cancelBlock, List.mem_append]; exact .inl (mem_sessionParams.2 ⟨h1, h2⟩))
  · rintro ⟨F, R, N, hF, hR, hN, rfl, rfl⟩
    let σ : TVar → RTy := fun v => match v with
      | .S k => F k
      | .R _ => R
      | .T => endTy
      | .N => N
      | .C _ => endTy
    refine ⟨_, .inr (.inr (.inr rfl)), [], by simp [cancelBlock], σ, ?_, cancelBlock_self _ _ _ _, rfl⟩
    intro v hv
    simp only [cancelBlock, List.mem_append, List.mem_cons, List.not_mem_nil, or_false, sessionParams, List.mem_map,
      mem_range'] at hv
    rcases hv with ⟨k, hk, rfl⟩ | rfl | rfl
    · exact hF k hk.1 (by omega)
    · exact hR
    · exact hN

end Verif.Baking
