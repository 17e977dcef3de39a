import Verif.Model.MVDict
/-!
# What a dictionary with several values per key should do

An abstract map from keys to lists of values, without addresses and without sharing.
-/

namespace Verif.Spec
variable {κ α : Type} [DecidableEq κ]

/-- Abstract map: `none` is an absent key. -/
abbrev AMap (κ α : Type) := κ → Option (List (Val α))

namespace AMap

/-- Change one key. -/
def upd (A : AMap κ α) (k : κ) (x : Option (List (Val α))) : AMap κ α :=
  fun k' => if k' = k then x else A k'

/-- Append values to a key, creating it when absent. -/
def add (A : AMap κ α) (k : κ) (vs : List (Val α)) : AMap κ α := A.upd k (some ((A k).getD [] ++ vs))

/-- Append single values one after the other. -/
def addAll (A : AMap κ α) (items : List (κ × Val α)) : AMap κ α :=
  items.foldl (fun A p => A.add p.1 [p.2]) A

/-- Append another map's lists, key by key. -/
def join (A B : AMap κ α) : AMap κ α := fun k =>
  match B k with
  | none => A k
  | some vs => some ((A k).getD [] ++ vs)

end AMap

/-- Calls that change a dictionary (`popitem` apart, since Python does not say which pair it
removes). -/
inductive Call (κ α : Type) where
  | set (k : κ) (v : Val α)
  | setlist (k : κ) (p : Val α)
  | setdefault (k : κ) (v : Val α)
  | setlistdefault (k : κ) (p : Val α)
  | append (k : κ) (v : Val α)
  | update (arg : UpdArg κ α) (kwargs : List (κ × Val α))
  | del (k : κ)
  | pop (k : κ) (dflt : Option (Val α))
  | clear

/-- The list a value stands for: nothing for `None`, a list's elements, else the value alone. -/
def asList (content : Nat → List (Val α)) : Val α → List (Val α)
  | .none => []
  | .list r => content r
  | .atom a => [.atom a]

/-- The effect of a call; `content` gives the elements of the lists passed as arguments, `other` the
dictionaries passed as arguments.  An exception leaves the map as it is. -/
def Call.effect (content : Nat → List (Val α)) (other : Nat → AMap κ α) :
    Call κ α → AMap κ α → Except Exc (AMap κ α)
  | .set k v, A => .ok (A.upd k (some [v]))
  | .setlist k p, A => .ok (A.upd k (some (asList content p)))
  | .setdefault k v, A => .ok (if (A k).isSome then A else A.upd k (some [v]))
  | .setlistdefault k p, A => .ok (if (A k).isSome then A else A.upd k (some (asList content p)))
  | .append k v, A => .ok (A.add k [v])
  | .update arg kwargs, A =>
    match arg with
    | .absent => .ok (A.addAll kwargs)
    | .mvd j => .ok ((A.join (other j)).addAll kwargs)
    | .mapping items => .ok ((A.addAll items).addAll kwargs)
    | .other => .error .attributeError
  | .del k, A => if (A k).isSome then .ok (A.upd k none) else .error .keyError
  | .pop k dflt, A =>
    if (A k).isSome then .ok (A.upd k none)
    else if dflt.isSome then .ok A else .error .keyError
  | .clear, _ => .ok (fun _ => none)

end Verif.Spec

namespace Verif.Mem
variable {κ α : Type} [DecidableEq κ]

/-- Forget the value a method returns. -/
def drop {β : Type} (r : Res (Mem κ α) β) : Res (Mem κ α) Unit :=
  match r with
  | (.ok _, m) => (.ok (), m)
  | (.error e, m) => (.error e, m)

/-- Make a call on the dictionary `i`. -/
def call (C : Conv κ α) (i : Nat) (c : Spec.Call κ α) (m : Mem κ α) : Res (Mem κ α) Unit :=
  match c with
  | .set k v => setItem C i k v m
  | .setlist k p => setList C i k p m
  | .setdefault k v => drop (setDefault C i k v m)
  | .setlistdefault k p => drop (setListDefault C i k p m)
  | .append k v => appendList C i k v m
  | .update arg kw => update C i arg kw m
  | .del k => delItem i k m
  | .pop k d => drop (pop i k d m)
  | .clear => clear i m

/-- The abstract map a dictionary stands for. -/
def abs (m : Mem κ α) (i : Nat) : Spec.AMap κ α := fun k => ((m.dict i).get? k).map m.elems

end Verif.Mem
