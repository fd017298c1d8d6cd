import Verif.Model.RealFmt
/-
The pattern of all reading functions: parse a parameter at the cursor, return `false` on failure.
-/
namespace Iges

/-- Result of a reading function: a value, the `false` return, undefined behaviour or an exception. -/
inductive Rd (α : Type) where
  | val (a : α)
  | fail
  | ub
  | exn
  deriving Repr, DecidableEq

namespace Rd
/-- sequencing -/
def bind {α β : Type} (r : Rd α) (f : α → Rd β) : Rd β :=
  match r with
  | .val a => f a
  | .fail => .fail
  | .ub => .ub
  | .exn => .exn

instance : Monad Rd where
  pure := Rd.val
  bind := Rd.bind

/-- Return `false` unless the condition holds. -/
def need (p : Prop) [Decidable p] : Rd Unit := if p then val () else fail

/-- A call that may fail, and the rest of the function. -/
def lift {α β : Type} (r : Res α) (f : α → Rd β) : Rd β :=
  match r with
  | .ok a => f a
  | .ub => .ub
  | .exn => .exn

@[simp] theorem val_bind {α β : Type} (a : α) (f : α → Rd β) : (Rd.val a >>= f) = f a := rfl
@[simp] theorem fail_bind {α β : Type} (f : α → Rd β) : ((Rd.fail : Rd α) >>= f) = Rd.fail := rfl
@[simp] theorem ub_bind {α β : Type} (f : α → Rd β) : ((Rd.ub : Rd α) >>= f) = Rd.ub := rfl
@[simp] theorem pure_eq {α : Type} (a : α) : (pure a : Rd α) = Rd.val a := rfl
@[simp] theorem lift_ok {α β : Type} (a : α) (f : α → Rd β) : lift (.ok a) f = f a := rfl
theorem need_true {p : Prop} [Decidable p] (h : p) : need p = val () := by simp [need, h]
theorem need_false {p : Prop} [Decidable p] (h : ¬ p) : need p = fail := by simp [need, h]
end Rd

/-- The text being parsed, the delimiters, and the conversion of a real parameter to a number:
`strtod` gives the double nearest to the decimal, the model leaves the conversion open.  Infinite
and NaN texts are converted to some number (their special arithmetic is not modelled). -/
structure Src where
  data : Str
  pd : Char
  rd : Char
  num : RealTok → ℚ

/-- Cursor and end-of-record flag. -/
structure Cur where
  idx : Nat
  eor : Bool
  deriving Repr, DecidableEq

/-- `if( !ParseHString( data, idx, var, eor, pd, rd ) ) return false;` -/
def Src.hstr (s : Src) (c : Cur) : Rd (Str × Cur) :=
  Rd.lift (ParseHString s.data c.idx c.eor s.pd s.rd) fun r =>
    if r.ok then Rd.val (r.param, ⟨r.idx, r.eor⟩) else Rd.fail

/-- `if( !ParseInt( data, idx, var, eor, pd, rd, dflt ) ) return false;` -/
def Src.int (s : Src) (c : Cur) (dflt : Option Int := none) : Rd (Int × Cur) :=
  Rd.lift (ParseInt s.data c.idx c.eor s.pd s.rd dflt) fun r =>
    match r.ok, r.param with
    | true, some v => Rd.val (v, ⟨r.idx, r.eor⟩)
    | _, _ => Rd.fail

/-- `if( !ParseReal( data, idx, var, eor, pd, rd, dflt ) ) return false;` -/
def Src.real (s : Src) (c : Cur) (dflt : Option RealTok := none) : Rd (ℚ × Cur) :=
  Rd.lift (ParseReal s.data c.idx c.eor s.pd s.rd dflt) fun r =>
    match r.ok, r.param with
    | true, some v => Rd.val (s.num v, ⟨r.idx, r.eor⟩)
    | _, _ => Rd.fail

end Iges
