import Verif.Proofs.ReadData
import Verif.Proofs.Straight
/-!
Which errors reading programs return: `UnexpectedEof` at the end of the input only, `InvalidData` otherwise.
-/
namespace Npyz
set_option autoImplicit false
open Spec

/-- All errors of the program itself are `InvalidData`, and an early end of the input is `UnexpectedEof`. -/
inductive Honest {α : Type} : RProg α → Prop
  | ret {r : Res α} (h : ∀ e, r = .err e → ∃ w, e = .invalidData w) : Honest (.ret r)
  | read {n : Nat} {k : Bytes → RProg α} (h : ∀ b, Honest (k b)) : Honest (.read n .unexpectedEof k)

namespace Honest
variable {α β : Type}

theorem bind {p : RProg α} {f : α → RProg β} (hp : Honest p) (hf : ∀ a, Honest (f a)) : Honest (p >>= f) := by
  induction hp with
  | @ret r h =>
    cases r with
    | ok a => exact hf a
    | err e => exact .ret fun e' he => h e' (by cases he; rfl)
    | panic => exact .ret fun e' he => by cases he
  | @read n k h ih => exact .read ih

theorem pure (a : α) : Honest (Pure.pure a : RProg α) := .ret fun e h => by cases h

theorem exact (n : Nat) : Honest (RProg.readExact n) := .read fun b => .ret fun e h => by cases h

theorem lift {r : Res α} (h : ∀ e, r = .err e → ∃ w, e = .invalidData w) : Honest (RProg.lift r) := .ret h

/-- Anything but an early end is not changed by more input. -/
theorem more {p : RProg α} (hp : Honest p) {bs : Bytes} (h : (p.run bs).1 ≠ .err .unexpectedEof) (more : Bytes) :
    p.run (bs ++ more) = ((p.run bs).1, (p.run bs).2 ++ more) := by
  induction hp generalizing bs with
  | ret _ => rfl
  | @read n k hk ih =>
    simp only [RProg.run] at h ⊢
    by_cases hn : n ≤ bs.length
    · rw [if_pos hn] at h
      rw [if_pos hn, if_pos (by simp; omega), List.take_append_of_le_length hn, List.drop_append_of_le_length hn]
      exact ih _ h
    · rw [if_neg hn] at h
      exact absurd rfl h

theorem kinds {p : RProg α} (hp : Honest p) {bs : Bytes} {e : Err} (h : (p.run bs).1 = .err e) :
    e = .unexpectedEof ∨ ∃ w, e = .invalidData w := by
  induction hp generalizing bs with
  | ret hr => exact .inr (hr e h)
  | @read n k hk ih =>
    simp only [RProg.run] at h
    by_cases hn : n ≤ bs.length
    · rw [if_pos hn] at h; exact ih _ h
    · rw [if_neg hn] at h; cases h; exact .inl rfl

end Honest

/-! ### Elements -/

theorem readMany_honest {α : Type} {p : RProg α} (h : Honest p) : (n : Nat) → Honest (readMany p n)
  | 0 => .pure _
  | n + 1 => .bind h fun _ => .bind (readMany_honest h n) fun _ => .pure _

theorem allocBytes_honest (M : Machine) (n : Nat) : Honest (RProg.lift (M.allocBytes n)) := .lift fun e h => by
  unfold Machine.allocBytes at h; split at h <;> cases h

theorem readWord_honest (M : Machine) (w : Nat) (s : Bool) : Honest (readWord M w s) := .bind (.exact _) fun _ => .pure _

theorem readBytes_honest (M : Machine) (i : ByteInfo) : Honest (readBytes M i) :=
  .bind (allocBytes_honest M _) fun _ => .bind (.exact _) fun _ => .pure _

theorem readCodePoint_honest (M : Machine) (s : Bool) : Honest (readCodePoint M s) :=
  .bind (readWord_honest M 4 s) fun x => .lift fun e h => by
    unfold validateCodeUnit at h; split at h <;> cases h; exact ⟨_, rfl⟩

theorem readChar_honest (M : Machine) (s : Bool) : Honest (readChar M s) :=
  .bind (readWord_honest M 4 s) fun x => .lift fun e h => by
    unfold charOfWord at h; split at h <;> cases h; exact ⟨_, rfl⟩

theorem readUtf8String_honest (M : Machine) (i : ByteInfo) : Honest (readUtf8String M i) :=
  .bind (readBytes_honest M i) fun x => .lift fun e h => by
    unfold textOfBytes at h; split at h <;> cases h; exact ⟨_, rfl⟩

mutual
theorem reader_honest {M : Machine} (t : Ty) {d : DType} {p : RProg t.Val} (h : t.reader M d = .ok p) : Honest p := by
  cases t with
  | num q => obtain ⟨x, -, h⟩ := dbind_ok h; cases h; exact readWord_honest _ _ _
  | bool =>
    obtain ⟨x, -, h⟩ := dbind_ok h; cases h
    exact .bind (.exact _) fun x => .lift fun e h => by
      unfold boolOfByte at h; split at h <;> cases h; exact ⟨_, rfl⟩
  | complex q =>
    obtain ⟨x, -, h⟩ := dbind_ok h; cases h
    exact .bind (readWord_honest _ _ _) fun _ => .bind (readWord_honest _ _ _) fun _ => .pure _
  | vecU8 => obtain ⟨x, -, h⟩ := dbind_ok h; cases h; exact readBytes_honest _ _
  | arrayVecU8 cap =>
    obtain ⟨x, -, h⟩ := dbind_ok h; cases h
    refine .bind (.exact _) fun _ => .bind ?_ fun _ => .pure _
    unfold skipRest
    split
    · exact .bind (allocBytes_honest M _) fun _ => .bind (.exact _) fun _ => .pure _
    · exact .pure _
  | fixedBytes n =>
    obtain ⟨x, -, h⟩ := dbind_ok h; cases h
    refine .read fun b => ?_
    split
    · exact .ret fun e h => by cases h
    · exact .ret fun e h => by cases h
  | vecU32 => obtain ⟨x, -, h⟩ := dbind_ok h; cases h; exact .bind (readMany_honest (readCodePoint_honest _ _) _) fun _ => .pure _
  | vecChar => obtain ⟨x, -, h⟩ := dbind_ok h; cases h; exact .bind (readMany_honest (readChar_honest _ _) _) fun _ => .pure _
  | string =>
    obtain ⟨x, -, h⟩ := dbind_ok h; cases h
    cases x with
    | utf8 i => exact readUtf8String_honest _ _
    | utf32 n e => exact .bind (readMany_honest (readChar_honest _ _) _) fun _ => .pure _
  | arrayVecU32 cap =>
    obtain ⟨x, -, h⟩ := dbind_ok h; cases h
    exact .bind (readMany_honest (readCodePoint_honest _ _) _) fun _ => .bind (readMany_honest (readCodePoint_honest _ _) _) fun _ => .pure _
  | arrayVecChar cap =>
    obtain ⟨x, -, h⟩ := dbind_ok h; cases h
    exact .bind (readMany_honest (readChar_honest _ _) _) fun _ => .bind (readMany_honest (readChar_honest _ _) _) fun _ => .pure _
  | arrayString cap =>
    obtain ⟨x, -, h⟩ := dbind_ok h; cases h
    exact .bind (readUtf8String_honest _ _) fun x => .lift fun e h => by
      unfold toArrayString at h; split at h <;> cases h
  | array n t =>
    obtain ⟨x, -, h⟩ := dbind_ok h
    obtain ⟨q, h1, h⟩ := dbind_ok h
    cases h
    exact readMany_honest (reader_honest t h1) n
  | record fs =>
    obtain ⟨x, -, h⟩ := dbind_ok h
    exact readers_honest fs h
theorem readers_honest {M : Machine} (fs : TFields) {dfs : Fields} {p : RProg fs.Val} (h : fs.reader M dfs = .ok p) : Honest p := by
  cases fs with
  | nil => unfold TFields.reader at h; cases h; exact .pure _
  | cons name t rest =>
    cases dfs with
    | nil => unfold TFields.reader at h; cases h
    | cons n d dfs =>
      unfold TFields.reader at h
      obtain ⟨p1, h1, h⟩ := dbind_ok h
      obtain ⟨p2, h2, h⟩ := dbind_ok h
      cases h
      exact .bind (reader_honest t h1) fun _ => .bind (readers_honest rest h2) fun _ => .pure _
end

/-! ### Headers -/

/-- No other errors than `InvalidData`. -/
def InvalidOnly {α : Type} (r : Res α) : Prop := ∀ e, r = .err e → ∃ w, e = .invalidData w

namespace InvalidOnly
variable {α β : Type}

theorem ok (a : α) : InvalidOnly (.ok a : Res α) := fun e h => by cases h
theorem err (w : String) : InvalidOnly (.err (.invalidData w) : Res α) := fun e h => by cases h; exact ⟨_, rfl⟩
theorem panic : InvalidOnly (.panic : Res α) := fun e h => by cases h

theorem bind {x : Res α} {f : α → Res β} (hx : InvalidOnly x) (hf : ∀ a, InvalidOnly (f a)) : InvalidOnly (x >>= f) := by
  cases x with
  | ok a => exact hf a
  | err e => intro e' he; cases he; exact hx e rfl
  | panic => intro e' he; cases he

theorem ite {c : Prop} [Decidable c] {x y : Res α} (hx : InvalidOnly x) (hy : InvalidOnly y) : InvalidOnly (if c then x else y) := by
  split <;> assumption

end InvalidOnly

theorem shapeInteger_invalidOnly : (v : PyVal) → InvalidOnly (shapeInteger v) := by
  intro v
  cases v <;> unfold shapeInteger
  case int n => exact .ite (.err _) (.ite (.ok _) (.err _))
  all_goals exact .err _

theorem shapeIntegers_invalidOnly : (vs : List PyVal) → InvalidOnly (shapeIntegers vs)
  | [] => .ok _
  | v :: vs => .bind (shapeInteger_invalidOnly v) fun _ => .bind (shapeIntegers_invalidOnly vs) fun _ => .ok _

theorem convertShape_invalidOnly (v : PyVal) : InvalidOnly (convertShape v) := by
  unfold convertShape
  split
  · exact shapeIntegers_invalidOnly _
  · exact shapeIntegers_invalidOnly _
  · exact .err _

theorem convertTypeStr_invalidOnly (s : Text) : InvalidOnly (convertTypeStr s) := by
  unfold convertTypeStr
  split
  · exact .ok _
  · split
    · exact .err _
    · exact .panic
  · exact .panic

theorem fieldName_invalidOnly (v : PyVal) : InvalidOnly (fieldName v) := by
  unfold fieldName
  split
  · exact .ok _
  · exact .err _

mutual
theorem fromDescr_invalidOnly (v : PyVal) : InvalidOnly (DType.fromDescr v) := by
  cases v with
  | str s => unfold DType.fromDescr; exact .bind (convertTypeStr_invalidOnly s) fun _ => .ok _
  | list vs => unfold DType.fromDescr; exact .bind (fromList_invalidOnly vs) fun _ => .ok _
  | _ => unfold DType.fromDescr; exact .err _
theorem fromList_invalidOnly (vs : List PyVal) : InvalidOnly (Fields.fromList vs) := by
  cases vs with
  | nil => unfold Fields.fromList; exact .ok _
  | cons v vs => unfold Fields.fromList; exact .bind (fieldFromVal_invalidOnly v) fun _ => .bind (fromList_invalidOnly vs) fun _ => .ok _
theorem fieldFromVal_invalidOnly (v : PyVal) : InvalidOnly (fieldFromVal v) := by
  cases v with
  | list vs => unfold fieldFromVal; exact fieldFromTuple_invalidOnly vs
  | tuple vs => unfold fieldFromVal; exact fieldFromTuple_invalidOnly vs
  | _ => unfold fieldFromVal; exact .err _
theorem fieldFromTuple_invalidOnly (vs : List PyVal) : InvalidOnly (fieldFromTuple vs) := by
  match vs with
  | [] => unfold fieldFromTuple; exact .err _
  | [a] => unfold fieldFromTuple; exact .err _
  | [n, d] => unfold fieldFromTuple; exact .bind (fieldName_invalidOnly n) fun _ => .bind (fromDescr_invalidOnly d) fun _ => .ok _
  | [n, d, s] =>
    unfold fieldFromTuple
    exact .bind (fieldName_invalidOnly n) fun _ => .bind (fromDescr_invalidOnly d) fun _ => .bind (convertShape_invalidOnly s) fun _ => .ok _
  | a :: b :: c :: d :: e => unfold fieldFromTuple; exact .err _
end

theorem mulU64_invalidOnly (M : Machine) (a b : Nat) : InvalidOnly (M.mulU64 a b) := by
  unfold Machine.mulU64
  repeat' split
  all_goals first | exact .ok _ | exact .panic

theorem shapeProduct_invalidOnly (M : Machine) : (acc : Nat) → (l : List Nat) → InvalidOnly (shapeProduct M acc l)
  | _, [] => .ok _
  | _, _ :: xs => .bind (mulU64_invalidOnly M _ _) fun a => shapeProduct_invalidOnly M a xs

theorem prefixProducts_invalidOnly (M : Machine) : (acc : Nat) → (l : List Nat) → InvalidOnly (prefixProducts M acc l)
  | _, [] => .ok _
  | _, _ :: xs => .bind (mulU64_invalidOnly M _ _) fun a => .bind (prefixProducts_invalidOnly M a xs) fun _ => .ok _

theorem fromParts_invalidOnly (M : Machine) (d : DType) (shape : List Nat) (o : Order) : InvalidOnly (NpyHeader.fromParts M d shape o) := by
  refine .bind (shapeProduct_invalidOnly M _ _) fun _ => .bind ?_ fun _ => .bind ?_ fun _ => .ok _
  · unfold itemSizeOf
    split
    · exact .ok _
    · split
      · exact .ok _
      · exact .err _
  · unfold computeStrides
    split
    · exact .bind (prefixProducts_invalidOnly M _ _) fun _ => .ok _
    · exact prefixProducts_invalidOnly M _ _

theorem stringKeys_invalidOnly : (l : List (PyVal × PyVal)) → InvalidOnly (stringKeys l)
  | [] => .ok _
  | (k, v) :: kvs => by
    cases k with
    | str s => exact .bind (stringKeys_invalidOnly kvs) fun _ => .ok _
    | _ => exact .err _

theorem expectKey_invalidOnly (d : List (Text × PyVal)) (k : Text) : InvalidOnly (expectKey d k) := by
  unfold expectKey
  split
  · exact .ok _
  · exact .err _

theorem interpretHeader_invalidOnly (M : Machine) (v : PyVal) : InvalidOnly (interpretHeader M v) := by
  unfold interpretHeader
  split
  · refine .bind (stringKeys_invalidOnly _) fun d => ?_
    unfold interpretDict
    refine .bind (expectKey_invalidOnly _ _) fun _ => .bind ?_ fun _ => .bind (expectKey_invalidOnly _ _) fun _ => .bind (convertShape_invalidOnly _) fun _ =>
      .bind (expectKey_invalidOnly _ _) fun _ => .bind (fromDescr_invalidOnly _) fun _ => fromParts_invalidOnly M _ _ _
    unfold orderFromVal
    split
    · exact .ok _
    · exact .err _
  · exact .err _

theorem parseHeaderText_invalidOnly (py : PyParser) (b : Bytes) : InvalidOnly (parseHeaderText py b) := by
  unfold parseHeaderText
  split
  · exact .err _
  · unfold parseResult
    split
    · exact .err _
    · exact .ok _

/-- Behind the first eight bytes, the reader of headers is honest. -/
theorem fromReader_honest (M : Machine) (py : PyParser) :
    ∃ k, NpyHeader.fromReader M py = .read 8 magicErr k ∧ ∀ b, Honest (k b) := by
  refine ⟨fun buf => (((if buf.take 6 = magic then .ret (.ok (buf.getD 6 0, buf.getD 7 0)) else .ret (.err magicErr) : RProg (UInt8 × UInt8)) >>=
    fun v => RProg.lift (getVersionProps v.1 v.2) >>= fun p => readHeaderSize p >>= fun size => RProg.lift (M.allocBytes size) >>= fun _ =>
      RProg.readExact size >>= fun text => RProg.lift (parseHeaderText py text)) >>= fun v => RProg.lift (interpretHeader M v)), rfl, fun b => ?_⟩
  refine .bind (.bind ?_ fun v => .bind (.lift ?_) fun p => .bind (.bind (.exact _) fun _ => .pure _) fun size => .bind (allocBytes_honest M _) fun _ =>
    .bind (.exact _) fun text => .lift (parseHeaderText_invalidOnly py text)) fun v => .lift (interpretHeader_invalidOnly M v)
  · split
    · exact .ret (InvalidOnly.ok _)
    · exact .ret (InvalidOnly.err _)
  · unfold getVersionProps
    exact InvalidOnly.ite (.ok _) (.ite (.ok _) (.ite (.ok _) (.err _)))

end Npyz
