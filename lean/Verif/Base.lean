/-!
# Common definitions

Outcomes of C++ functions and the monad the models are written in.
-/

namespace Cs

/-- How a C++ function can fail to return normally. -/
inductive Fault where
  /-- a C++ exception leaves the function; the object keeps the state it had at the throw -/
  | thrown
  /-- the process is terminated by `ctx_->state_mgr_->system_exit(..)` / `::exit(..)` -/
  | exit (code : Int)
  /-- undefined behaviour (out-of-bounds access, null dereference, `std::string(nullptr)`, ...) -/
  | ub
  deriving DecidableEq, Repr

deriving instance DecidableEq for Except

/-- State and fault monad. The state survives a fault, as it does in C++. -/
abbrev M (σ : Type) := ExceptT Fault (StateM σ)

/-- Run a model function: result and final state. -/
@[reducible] def M.exec {σ α : Type} (m : M σ α) (s : σ) : Except Fault α × σ := m s

/-- 64-bit unsigned subtraction (`size_t` and `ulong` wrap around). -/
def subU64 (a b : Nat) : Nat := (a + 2 ^ 64 - b) % 2 ^ 64

/-- A byte (`unsigned char`). -/
abbrev Byte := BitVec 8
/-- `cornerstone::int32`. -/
abbrev I32 := BitVec 32
/-- `cornerstone::ulong`. -/
abbrev U64 := BitVec 64

/-! ## Running the monad -/

@[simp] theorem run_pure {σ α : Type} (a : α) (s : σ) : (pure a : M σ α) s = (.ok a, s) := rfl
@[simp] theorem run_throw {σ α : Type} (e : Fault) (s : σ) : (throw e : M σ α) s = (.error e, s) := rfl
@[simp] theorem run_get {σ : Type} (s : σ) : (get : M σ σ) s = (.ok s, s) := rfl
@[simp] theorem run_set {σ : Type} (s' s : σ) : (set s' : M σ PUnit) s = (.ok ⟨⟩, s') := rfl
@[simp] theorem run_modify {σ : Type} (f : σ → σ) (s : σ) : (modify f : M σ PUnit) s = (.ok ⟨⟩, f s) := rfl
theorem run_bind {σ α β : Type} (m : M σ α) (k : α → M σ β) (s : σ) :
    (m >>= k) s = match m s with
      | (.ok a, s') => k a s'
      | (.error e, s') => (.error e, s') := by
  show (ExceptT.bind m k) s = _
  unfold ExceptT.bind ExceptT.mk
  show (StateT.bind m (ExceptT.bindCont k)) s = _
  unfold StateT.bind
  show (match m s with | (a, s') => ExceptT.bindCont k a s') = _
  rcases m s with ⟨a | a, s'⟩ <;> rfl

theorem run_bind_ok {σ α β : Type} {m : M σ α} {k : α → M σ β} {s s' : σ} {a : α} (h : m s = (.ok a, s')) :
    (m >>= k) s = k a s' := by rw [run_bind, h]

theorem run_bind_err {σ α β : Type} {m : M σ α} {k : α → M σ β} {s s' : σ} {e : Fault} (h : m s = (.error e, s')) :
    (m >>= k) s = (.error e, s') := by rw [run_bind, h]

@[simp] theorem run_ite {σ α : Type} (c : Prop) [Decidable c] (a b : M σ α) (s : σ) :
    (if c then a else b) s = if c then a s else b s := by split <;> rfl

@[simp] theorem run_liftExcept_ok {σ α : Type} (a : α) (s : σ) :
    (liftM (n := M σ) (m := Except Fault) (.ok a)) s = (.ok a, s) := rfl
@[simp] theorem run_liftExcept_err {σ α : Type} (e : Fault) (s : σ) :
    (liftM (n := M σ) (m := Except Fault) (α := α) (.error e)) s = (.error e, s) := rfl

theorem ok_bind {α β : Type} (a : α) (f : α → Except Fault β) : (Except.ok a >>= f) = f a := rfl
theorem err_bind {α β : Type} (e : Fault) (f : α → Except Fault β) : (Except.error e >>= f) = .error e := rfl

end Cs
