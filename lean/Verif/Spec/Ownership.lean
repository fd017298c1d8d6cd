import Verif.Model.Ownership
import Mathlib.Logic.Relation
/-
C102: who should delete what.
-/
namespace Iges.Own.Spec
open Iges.Own

/-- Who can hold an object: a handle, an outline, or the caller. -/
inductive Holder
  | handle (h : Nat)
  | outline (a : Nat)
  | caller

/-- The object is held by that one. -/
def Holds (s : Heap) : Holder → Nat → Prop
  | .handle h, x => s.hnd h = some x
  | .outline a, x => a ∈ s.live ∧ x ∈ s.kids a
  | .caller, x => x ∈ s.raw

/-- Every object that exists has exactly one holder, which has one pointer to it, and there are no pointers to others. -/
structure Owned (s : Heap) : Prop where
  exists_ : ∀ H x, Holds s H x → x ∈ s.live
  one : ∀ x ∈ s.live, ∃ H, Holds s H x ∧ ∀ H', Holds s H' x → H' = H
  once : ∀ a ∈ s.live, (s.kids a).Nodup

/-- `x` is `a` or belongs to it, directly or not. -/
def Part (s : Heap) (a x : Nat) : Prop := Relation.ReflTransGen (fun u v => v ∈ s.kids u) a x

/-- The caller keeps the rules: a handle is attached only to an object that the caller holds, only such an object is given by pointer,
and no outline is given to itself. What comes of a merge is made of segments of the two outlines and new ones, without repetition. -/
def GoodAnswer (s : Heap) (o a : Nat) : Answer → Prop
  | .refused | .kept => True
  | .merged c ks n => (c = o ∨ c ∈ s.kids o) ∧ ks.Nodup ∧
      (∀ k ∈ ks, k ∈ s.kids c ∨ k ∈ s.kids a ∨ (s.next ≤ k ∧ k < s.next + n)) ∧ ∀ k, s.next ≤ k → k < s.next + n → k ∈ ks

/-- See `GoodAnswer`. -/
def Good (s : Heap) : Call → Prop
  | .create _ | .destroy _ | .detach _ => True
  | .attach h a => s.hnd h = none → a ∈ s.raw
  | .give h g r => h ≠ g ∧ ∀ o a, s.hnd h = some o → s.hnd g = some a → GoodAnswer s o a r
  | .giveRaw h a r => a ∈ s.raw ∧ ∀ o, s.hnd h = some o → GoodAnswer s o a r

/-- All calls of a history keep the rules. -/
def GoodRun (s : Heap) : List Call → Prop
  | [] => True
  | c :: cs => Good s c ∧ ∀ s', step s c = some s' → GoodRun s' cs

end Iges.Own.Spec
