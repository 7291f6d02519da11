import Verif.Model.Buffer
/-!
# What a user expects of a history of buffer operations

A buffer is a sequence of elements; an element that was never given a value is `none`.  Memory does not occur.
`lim` is the largest size (`none`: unlimited).  Only the operation names and result tags of `Model/Buffer.lean` are used.
-/
namespace Ack.Mem.Spec

/-- The contents of one buffer. -/
abbrev Buf := List (Option Word)

/-- Does a size fit? -/
def fits (lim : Option Nat) (n : Nat) : Prop := ∀ N, lim = some N → n ≤ N

/-- `Good lim mv s op s' out`: in state `s` the call `op` may succeed, with state `s'` and return value `out`.
`mv`: a move leaves its source empty (otherwise it copies).  The only freedom is the content of elements added by
`resize`. -/
def Good (lim : Option Nat) (mv : Bool) (s : List Buf) (op : Op) (s' : List Buf) (out : Out) : Prop :=
  match op with
  | .create => s' = s ++ [[]] ∧ out = .none
  | .copyNew i => (∀ x, s[i]? = some x → s' = s ++ [x]) ∧ (s[i]? = none → s' = s) ∧ out = .none
  | .moveNew i =>
    (∀ x, s[i]? = some x → s' = (if mv then s.set i [] else s) ++ [x]) ∧ (s[i]? = none → s' = s) ∧ out = .none
  | .copyAssign i j =>
    (∀ x, j < s.length → s[j]? = some x → s' = s.set i x) ∧ (s.length ≤ j → s' = s) ∧ out = .none
  | .moveAssign i j =>
    (∀ x, i < s.length → s[j]? = some x → i ≠ j → s' = if mv then (s.set i x).set j [] else s.set i x) ∧
    ((s.length ≤ i ∨ s.length ≤ j ∨ i = j) → s' = s) ∧ out = .none
  | .resize i n =>
    (∀ x, s[i]? = some x → fits lim n → out = .flag true ∧
      ∃ x', s' = s.set i x' ∧ x'.length = n ∧ ∀ k, k < n → k < x.length → x'[k]? = x[k]?) ∧
    (∀ x, s[i]? = some x → ¬ fits lim n → out = .flag false ∧ s' = s) ∧
    (s[i]? = none → s' = s ∧ out = .none)
  | .clear i => s' = s.set i [] ∧ out = .none
  | .swap i j =>
    (∀ x y, s[i]? = some x → s[j]? = some y → s' = (s.set i y).set j x) ∧
    ((s.length ≤ i ∨ s.length ≤ j) → s' = s) ∧ out = .none
  | .write i k v => (∀ x, s[i]? = some x → k < x.length ∧ s' = s.set i (x.set k (some v))) ∧
    (s[i]? = none → s' = s) ∧ out = .none
  | .read i k => s' = s ∧ (∀ x, s[i]? = some x → ∃ w, x[k]? = some (some w) ∧ out = .word w) ∧
    (s[i]? = none → out = .none)

/-- `Bad s op e`: in state `s` the call `op` fails with `e`.  A call aborts only for an element access at or beyond the
size; its behaviour is undefined only when it reads an element that never got a value. -/
def Bad (s : List Buf) (op : Op) (e : Err) : Prop :=
  match op with
  | .write i k _ => ∃ x, s[i]? = some x ∧ x.length ≤ k ∧ e = .abort
  | .read i k => ∃ x, s[i]? = some x ∧ ((x.length ≤ k ∧ e = .abort) ∨ (x[k]? = some none ∧ e = .ub))
  | _ => False

/-- A whole history that succeeds. -/
inductive Runs (lim : Option Nat) (mv : Bool) : List Buf → List Op → List Buf → List Out → Prop
  | nil (s) : Runs lim mv s [] s []
  | cons {s op s' out ops s'' outs} : Good lim mv s op s' out → Runs lim mv s' ops s'' outs →
      Runs lim mv s (op :: ops) s'' (out :: outs)

/-- A whole history that fails at some call. -/
inductive Fails (lim : Option Nat) (mv : Bool) : List Buf → List Op → Err → Prop
  | here {s op ops e} : Bad s op e → Fails lim mv s (op :: ops) e
  | later {s op s' out ops e} : Good lim mv s op s' out → Fails lim mv s' ops e → Fails lim mv s (op :: ops) e

end Ack.Mem.Spec
