import Verif.Model.Faulty
/-!
What may go wrong with an archive.
-/
set_option autoImplicit false
namespace Npyz.Spec
open Npyz

/-- Errors that reading from an archive may meet: one of the `read` calls fails, or opening a member does. -/
inductive Meets (z : FlakyArchive) : Err → Prop
  | read (c : Nat) (h : .fail c ∈ z.evs) : Meets z (.source c)
  | opening (c : Nat) (h : some (.io c) ∈ z.opens) : Meets z (.source c)
  | invalid (why : String) (h : some .invalidArchive ∈ z.opens) : Meets z (.invalidData why)
  | unsupported (why : String) (h : some .unsupportedArchive ∈ z.opens) : Meets z (.invalidData why)

/-- Nothing goes wrong: reads may be short or interrupted, but none fails. -/
def Harmless (z : FlakyArchive) : Prop := (∀ c, .fail c ∉ z.evs) ∧ ∀ e, some e ∉ z.opens

/-- On a failing archive the function `p` does what `r` says about the contents of the archive, or it returns an error that
was met; it does not change the archive. -/
def Follows {α : Type} (p : ZipM α) (r : NpzArchive → Res α) : Prop :=
  ∀ z, (p z).2.archive = z.archive ∧ ((p z).1 = r z.archive ∨ ∃ e, Meets z e ∧ (p z).1 = .err e)

/-- Errors that writing to an archive may meet. -/
inductive MeetsW (z : ShakyArchive) : Err → Prop
  | stream (c : Nat) (h : .fail c ∈ z.evs) : MeetsW z (.source c)
  | starting (c : Nat) (h : some c ∈ z.starts) : MeetsW z (.source c)

/-- `part` is what is there of `whole` at some point while its members are written one after the other: some members are
complete, and perhaps a part of the next. -/
def PartOf (part whole : List (Text × Bytes)) : Prop :=
  part <+: whole ∨ ∃ done file content rest more, part = done ++ [(file, content)] ∧ whole = done ++ (file, content ++ rest) :: more

/-- The number of failures in a schedule. -/
def failures (evs : List RProg.Ev) : Nat := evs.countP fun e => match e with
  | .fail _ => true
  | _ => false

end Npyz.Spec
