import Verif.Prop.C73

/-!
# C73: a choice at a name that is no role
-/
namespace Verif.Prop
open Verif.Nuscr Verif.NuscrSpec Verif.NuscrText Verif.NuscrTextSpec Verif.NuscrLayout

theorem choice_panics {title : Text → Text} {roles : List Text} {idx : List Nat} {x c : Text} {t : Tree} {done : List Msg}
    (hs : Shape title roles idx t done) (hr : roles ≠ []) (hx : x ∉ roles) : choiceAll roles c x t = .error .panicked := by
  cases roles with
  | nil => exact absurd rfl hr
  | cons r rs =>
    unfold choiceAll
    rw [List.foldlM_cons]
    have : choiceFor c x t r = .error .panicked := by
      unfold choiceFor
      rw [if_pos (fun e => hx (by simp [e])), hs.outside x r hx]
      rfl
    rw [this]
    rfl

/-- The text up to the choice is read, and then the generator panics. -/
theorem unknown_chooser (title : Text → Text) (name : Text) (roles : List Text) (pre : List Item) (x : Text) (w : Nat)
    (rest : List Line) (hr : roles ≠ []) (hx : x ∉ roles) :
    generator title (⟨1, 0, false, .global name roles⟩ :: (pre.map Item.line ++ ⟨w, 0, false, .choice x⟩ :: rest)) =
      (addMessages title (sorted roles) (messagesOf pre) (initTree (sorted roles) ['0'] (Tree.new [0])) >>= fun _ =>
        .error .panicked) := by
  rw [generator_header, run_items title _ _ _ 1 _ _ (by omega) (by simp), bind_assoc']
  refine bind_congr_ok fun m hm => ?_
  obtain ⟨f1, _, f3, f4⟩ := itemsGlob_fields (indexText (initTree (sorted roles) ['0'] (Tree.new [0])).index) pre
    ⟨some name, sorted roles, fun _ => none, 1, 0, Tables.empty⟩
  simp only at f1 f3 f4
  obtain ⟨_, s, _⟩ := (add_iff title (sorted roles) [0] (messagesOf pre) [] _ (shape_header title (sorted roles) [0])).1 m hm
  simp only [number]
  unfold run
  rw [step_choice title _ _ _ _ 0 _ w x _ (by omega) (by omega) (by omega), f1,
    choice_panics (shape_enums s _) (fun e => hr ((sorted_nil _).mp e)) (fun h => hx ((mem_sorted _ _).mp h))]
  rfl

/-- C73: a text with a choice at a name that is none of its roles is never accepted, whatever stands before the choice and
after it, and wherever the bracket of the choice is. -/
theorem C73_choice_unknown (title : Text → Text) (name : Text) (roles : List Text) (pre : List Item) (x : Text) (w : Nat)
    (rest : List Line) (hr : roles ≠ []) (hx : x ∉ roles) (prog : Program) :
    generator title (⟨1, 0, false, .global name roles⟩ :: (pre.map Item.line ++ ⟨w, 0, false, .choice x⟩ :: rest)) ≠
      .ok prog := by
  rw [unknown_chooser title name roles pre x w rest hr hx]
  intro h
  obtain ⟨_, _, h⟩ := bind_ok h
  cases h

/-- The first lines of `scribble_protocols/atmp/o_auth_2.nuscr`. -/
def oAuth2 : List Text := [
  "timed global protocol oAuth(role Auth, role Client, role Server) {".toList,
  "    Authorization(Approval) from Client to Auth within [0;1] using a and resetting (); // Request Authorization Approval".toList,
  "    choice at A".toList]

theorem oAuth2_read : oAuth2.map (lineOf ascii) =
    [⟨1, 0, false, .global "oAuth".toList ["Auth".toList, "Client".toList, "Server".toList]⟩,
     (Item.msg (step "Client" "Auth" "Authorization" "Approval")).line, ⟨0, 0, false, .choice "A".toList⟩] := by
  decide +kernel

/-- The generator does not report the wrong name of `o_auth_2.nuscr` but panics, whatever the rest of the file is. -/
theorem C73_o_auth_2 (rest : List Text) : generatorText id ascii (oAuth2 ++ rest) = .error .panicked := by
  unfold generatorText
  rw [List.map_append, oAuth2_read]
  have h := unknown_chooser id "oAuth".toList ["Auth".toList, "Client".toList, "Server".toList]
    [.msg (step "Client" "Auth" "Authorization" "Approval")] "A".toList 0 (rest.map (lineOf ascii)) (by decide) (by decide)
  simp only [List.map_cons, List.map_nil, List.cons_append, List.nil_append] at h ⊢
  rw [h]
  obtain ⟨m, hm⟩ := (okB_iff (addMessages id (sorted ["Auth".toList, "Client".toList, "Server".toList])
    (messagesOf [.msg (step "Client" "Auth" "Authorization" "Approval")])
    (initTree (sorted ["Auth".toList, "Client".toList, "Server".toList]) ['0'] (Tree.new [0])))).mp (by decide +kernel)
  rw [hm]
  rfl

end Verif.Prop
