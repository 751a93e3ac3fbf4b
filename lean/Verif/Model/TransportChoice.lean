import Verif.Model.Choice
/-!
# Model of `choose_tcp!`, `offer_tcp!`, `choose_udp!`, `offer_udp!`
-/
namespace Verif.Transport
open Verif.Types Verif.Heap

/-- `choose_tcp!(label, session, data)` (`/repo/src/transport/tcp/choose.rs:19-25`) and `choose_udp!`
(`/repo/src/transport/udp/choose.rs:19-25`): `let (here, there) = Session::new(); let s = send((data, label(there)), session);
cancel(s); cancel(data); here`.  The expression `data` is evaluated twice; each time it may be any code (`Steps`).  `d` is the data of
the first evaluation, which are sent; those of the second are dropped.  Other threads run at any time. -/
inductive ChoosesNet {P : Type} [DecidableEq P] (G : Env P) (e : Entry P) (tag : Nat) (s : STy P) :
    St P → EP → St P → Prop
  | mk {st st1 st2 st3 st4 st5 st6 : St P} {here there : EP} {k : Entry P} {o1 o2 o3 : Out} {d : Nat} {r : List (Entry P)} :
      step G st (.new s) = some (st1, o1) →
      st1.pool = ⟨here, s⟩ :: ⟨there, s.dual⟩ :: r →
      Steps G st1 st2 →
      step G st2 (.send e ⟨tag, d, [there]⟩) = some (st3, o2) →
      st3.pool.head? = some k →
      Steps G st3 st4 →
      step G st4 (.drop k) = some (st5, o3) →
      Steps G st5 st6 →
      ChoosesNet G e tag s st here st6

/-- What `offer_tcp!` gives: the arm of the received label runs with `there`, `recv` failed, or no arm matched. -/
inductive OfferRes where
  | arm (tag : Nat) (there : EP)
  | err
  | panic
  deriving DecidableEq, Repr

/-- `offer_tcp!(session, { arms })` (`/repo/src/transport/tcp/offer.rs:19-32`) and `offer_udp!` (`/repo/src/transport/udp/offer.rs:19-32`):
`let ((data, cont), s) = recv(session)?; cancel(s); cancel(data); match cont { arms, _ => panic!("Unexpected payload") }`.  `arms`:
the labels matched by a pattern. -/
inductive OffersNet {P : Type} [DecidableEq P] (G : Env P) (arms : Nat → Bool) (e : Entry P) : St P → OfferRes → St P → Prop
  | got {st st1 st2 st3 : St P} {v : Val} {there k : EP} {o : Out} :
      step G st (.recv e) = some (st1, .value v) →
      v.eps = [there] →
      ⟨k, .fin⟩ ∈ st1.pool →
      Steps G st1 st2 →
      step G st2 (.drop ⟨k, .fin⟩) = some (st3, o) →
      OffersNet G arms e st (if arms v.tag then .arm v.tag there else .panic) st3
  | err {st st1 : St P} :
      step G st (.recv e) = some (st1, .err) →
      OffersNet G arms e st .err st1

end Verif.Transport
