/-!
# Outcomes of C++ calls

Modelled code: `wreport/error.h` (exception classes).
-/

namespace Wreport

/-- The exception classes of `wreport/error.h` lines 21-50 (`ErrorCode`).
Messages are not modelled. -/
inductive Err where
  | notfound | type | alloc | toolong | system | consistency | parse | write
  | unimplemented | domain
deriving DecidableEq, Repr

/-- Outcome of a C++ call: normal return, exception, or undefined behaviour. -/
inductive Res (α : Type) where
  | ok (a : α)
  | err (e : Err)
  | ub
deriving DecidableEq, Repr

namespace Res

/-- Sequencing: an exception or undefined behaviour ends the computation. -/
@[inline] def bind {α β : Type} (x : Res α) (f : α → Res β) : Res β :=
  match x with
  | ok a => f a
  | err e => err e
  | ub => ub

instance : Monad Res where
  pure := ok
  bind := bind

@[simp] theorem pure_def {α : Type} (a : α) : (pure a : Res α) = ok a := rfl
@[simp] theorem ok_bind {α β : Type} (a : α) (f : α → Res β) : (ok a >>= f) = f a := rfl
@[simp] theorem err_bind {α β : Type} (e : Err) (f : α → Res β) : (err e >>= f) = err e := rfl
@[simp] theorem ub_bind {α β : Type} (f : α → Res β) : (ub >>= f) = ub := rfl

instance : LawfulMonad Res := LawfulMonad.mk'
  (id_map := by intro α x; cases x <;> rfl)
  (pure_bind := by intros; rfl)
  (bind_assoc := by intro α β γ x f g; cases x <;> rfl)

theorem bind_eq_ok {α β : Type} {x : Res α} {f : α → Res β} {b : β} :
    (x >>= f) = ok b ↔ ∃ a, x = ok a ∧ f a = ok b := by
  cases x <;> simp

@[simp] theorem map_eq {α β : Type} (f : α → β) (x : Res α) :
    (f <$> x) = (x >>= fun a => ok (f a)) := by
  cases x <;> rfl

/-- True for normal return. -/
def isOk {α : Type} : Res α → Bool
  | ok _ => true
  | _ => false

/-- No undefined behaviour; a returned value satisfies `P`, an exception
satisfies `Q`. -/
def Post {α : Type} (r : Res α) (P : α → Prop) (Q : Err → Prop) : Prop :=
  match r with
  | ok a => P a
  | err e => Q e
  | ub => False

theorem Post.bind {α β : Type} {x : Res α} {f : α → Res β} {P : α → Prop} {P' : β → Prop}
    {Q : Err → Prop} (hx : x.Post P Q) (hf : ∀ a, P a → (f a).Post P' Q) :
    (x >>= f).Post P' Q := by
  cases x with
  | ok a => exact hf a hx
  | err e => exact hx
  | ub => exact hx

theorem Post.mono {α : Type} {x : Res α} {P P' : α → Prop} {Q Q' : Err → Prop} (hx : x.Post P Q)
    (hp : ∀ a, P a → P' a) (hq : ∀ e, Q e → Q' e) : x.Post P' Q' := by
  cases x with
  | ok a => exact hp a hx
  | err e => exact hq e hx
  | ub => exact hx

theorem Post.of_ok {α : Type} {a : α} {P : α → Prop} {Q : Err → Prop} (h : P a) :
    (ok a : Res α).Post P Q := h

end Res

/-- A byte of a C++ `std::string` or buffer. -/
abbrev Byte := UInt8

/-- Bytes of an ASCII literal. -/
def ascii (s : String) : List Byte := s.toList.map fun c => UInt8.ofNat c.toNat

/-- `isdigit` on a byte. Bytes from 0x80 up are passed as negative `char`; glibc
answers false for them. -/
def isDigit (b : Byte) : Bool := 48 ≤ b.toNat && b.toNat ≤ 57

/-- `isspace` on a byte in the C locale: space, \t, \n, \v, \f, \r. -/
def isSpace (b : Byte) : Bool := b.toNat == 32 || (9 ≤ b.toNat && b.toNat ≤ 13)

end Wreport
