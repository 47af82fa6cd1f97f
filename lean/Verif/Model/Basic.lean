/-!
# Outcomes and the state-and-exception monad

C++ keeps the effects performed before an exception is thrown, so the monad
returns the final state in every case.
-/
namespace Configor

/-- Classes of exceptions the library throws.
Models include/configor/details/exception.hpp:37-94 (the class only; the text of
`what()` is not modelled), `std::out_of_range` thrown by value.hpp and
iterator.hpp, `std::length_error` thrown by `std::vector`, and `std::bad_alloc` thrown by an
allocator. -/
inductive Err where
  | deserialization
  | serialization
  | typeError
  | invalidKey
  | invalidIterator
  | outOfRange
  | lengthError
  | badAlloc
  deriving DecidableEq, Repr

/-- The ways a call can stop without a result. `abort` is a failed
`CONFIGOR_ASSERT` (configor_config.hpp), `ub` is undefined behaviour, `fuel` means
that the loop bound of the model was used up: it stands for "still running".
Exceptions: exception.hpp:37-94; assertions: exception.hpp:25-27. -/
inductive Stop where
  | exn (e : Err)
  | abort
  | ub
  | fuel
  deriving DecidableEq, Repr

/-- A computation with state `σ`: the state survives abnormal ends, as in C++.
Model infrastructure for the calls that throw, e.g. parser.hpp:55-70. -/
def M (σ α : Type) : Type := σ → Except Stop α × σ

namespace M
variable {σ α β : Type}

/-- Return a value. Model infrastructure (`return`), see parser.hpp:55-70. -/
def pure (a : α) : M σ α := fun s => (.ok a, s)

/-- Sequence two computations. Model infrastructure (`;`), see parser.hpp:55-70. -/
def bind (m : M σ α) (f : α → M σ β) : M σ β := fun s =>
  match m s with
  | (.ok a, s') => f a s'
  | (.error e, s') => (.error e, s')

instance : Monad (M σ) where
  pure := pure
  bind := bind

/-- Stop abnormally. See exception.hpp:25-94. -/
def stop (e : Stop) : M σ α := fun s => (.error e, s)

/-- Throw a C++ exception. See exception.hpp:37-94. -/
def throw (e : Err) : M σ α := stop (.exn e)

/-- Read the state. Model infrastructure: the members of the object, e.g. json.hpp:646-650. -/
def get : M σ σ := fun s => (.ok s, s)

/-- Read a part of the state. Model infrastructure: a member of the object, e.g. json.hpp:646-650. -/
def gets (f : σ → α) : M σ α := fun s => (.ok (f s), s)

/-- Change the state. Model infrastructure: an assignment to members, e.g. json.hpp:646-650. -/
def modify (f : σ → σ) : M σ Unit := fun s => (.ok (), f s)

theorem bind_def (m : M σ α) (f : α → M σ β) (s : σ) :
    (m >>= f) s = match m s with
      | (.ok a, s') => f a s'
      | (.error e, s') => (.error e, s') := rfl

theorem pure_def (a : α) (s : σ) : (Pure.pure a : M σ α) s = (.ok a, s) := rfl

theorem bind_ok {m : M σ α} {f : α → M σ β} {s s' : σ} {a : α} (h : m s = (.ok a, s')) :
    (m >>= f) s = f a s' := by simp [bind_def, h]

theorem bind_error {m : M σ α} {f : α → M σ β} {s s' : σ} {e : Stop}
    (h : m s = (.error e, s')) : (m >>= f) s = (.error e, s') := by simp [bind_def, h]

end M
end Configor
