/-!
Basic vocabulary of the model: outcomes, errors, machine parameters.
-/
namespace Npyz

/-- Outcome of a Rust call: a normal value, an `Err`, or a panic.
(Rust `Result<α, ε>` plus an explicit panic path.) -/
inductive Out (ε : Type) (α : Type u) where
  | ok (a : α)
  | err (e : ε)
  | panic
deriving DecidableEq, Repr

namespace Out

/-- `?`-operator / sequencing: errors and panics propagate. -/
@[inline] def bind {ε : Type} {α : Type u} {β : Type v} (x : Out ε α) (f : α → Out ε β) : Out ε β :=
  match x with
  | ok a => f a
  | err e => err e
  | panic => panic

instance {ε : Type} : Monad (Out ε) where
  pure := ok
  bind := bind

@[simp] theorem pure_eq {ε : Type} {α : Type u} (a : α) : (pure a : Out ε α) = ok a := rfl
@[simp] theorem bind_ok {ε : Type} {α β : Type u} (a : α) (f : α → Out ε β) : (ok a >>= f) = f a := rfl
@[simp] theorem bind_err {ε : Type} {α β : Type u} (e : ε) (f : α → Out ε β) : ((err e : Out ε α) >>= f) = err e := rfl
@[simp] theorem bind_panic {ε : Type} {α β : Type u} (f : α → Out ε β) : ((panic : Out ε α) >>= f) = panic := rfl

instance {ε : Type} : LawfulMonad (Out ε) := LawfulMonad.mk'
  (id_map := fun x => by cases x <;> rfl)
  (pure_bind := fun _ _ => rfl)
  (bind_assoc := fun x _ _ => by cases x <;> rfl)

theorem bind_eq_ok {ε : Type} {α β : Type u} {x : Out ε α} {f : α → Out ε β} {b : β} :
    (x >>= f) = ok b ↔ ∃ a, x = ok a ∧ f a = ok b := by
  cases x <;> simp

/-- `Result::map_err`. -/
def mapErr {ε ε' : Type} {α : Type u} (f : ε → ε') : Out ε α → Out ε' α
  | ok a => ok a
  | err e => err (f e)
  | panic => panic

def isOk {ε : Type} {α : Type u} : Out ε α → Bool
  | ok _ => true
  | _ => false

end Out

/-- `io::Error` as the callers can distinguish it.  Message texts are abbreviated to a tag.
* `invalidData`: `io::ErrorKind::InvalidData` built by npyz (`invalid_data`, header.rs 218-220,
  read.rs 552-554, serialize/mod.rs).
* `unexpectedEof`: what `read_exact` returns at end of input.
* `unsupported`: `io::ErrorKind::Unsupported` (read.rs 433).
* `source`: any error returned by the user-supplied `Read`/`Write`/`Seek`. -/
inductive Err where
  | invalidData (why : String)
  | unexpectedEof
  | unsupported
  | source (code : Nat)
deriving DecidableEq, Repr

abbrev Res (α : Type u) := Out Err α

/-- The machine and build the crate runs on.
* `bigEndian`: byte order (`Endianness::of_machine`, type_str.rs 99-105).
* `usizeBits`: width of `usize` (32 or 64).
* `overflowChecks`: whether `+ - *` panic on overflow (debug) or wrap (release). -/
structure Machine where
  bigEndian : Bool
  usizeBits : Nat
  overflowChecks : Bool
deriving DecidableEq, Repr

/-- The machines we quantify over: 32- or 64-bit. -/
def Machine.Wf (M : Machine) : Prop := M.usizeBits = 32 ∨ M.usizeBits = 64

/-- Number of `usize` values. -/
def Machine.usizeLim (M : Machine) : Nat := 2 ^ M.usizeBits

/-- Number of `u64` values. -/
abbrev u64Lim : Nat := 2 ^ 64

/-- A `u64` multiplication in Rust: exact when it fits; otherwise a panic with overflow checks, and
wrapping without. -/
def Machine.mulU64 (M : Machine) (a b : Nat) : Res Nat :=
  if a * b < u64Lim then .ok (a * b)
  else if M.overflowChecks then .panic
  else .ok ((a * b) % u64Lim)

abbrev Bytes := List UInt8
abbrev Text := List Char

end Npyz
