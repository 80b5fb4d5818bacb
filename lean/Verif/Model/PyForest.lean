import Verif.Model.Json
import Verif.Model.PyStore
import Verif.Model.Text

/-!
# Model of making and printing `Forest` objects in Python (`gbdt/_forest.py:5-12, 52-53`)

The package is for Python 2.7 (`README.md:20`) and uses `six` for Python 3.  In Python 2 there are two types of strings, `str` (bytes) and
`unicode`; `six.text_type` is `unicode`.  `pybind11` turns a `std::string` into a `unicode` object.
-/

set_option autoImplicit false

namespace Gbdt

/-- The version of Python (`README.md:20`; `import six`, `_forest.py:1`). -/
inductive PyVersion where
  | two
  | three
  deriving DecidableEq

/-- Strings of Python 2 and 3 (`_forest.py:7`): bytes, given by the characters they encode in ASCII, and text. -/
inductive PyString where
  | bytes (t : Text)
  | text (t : Text)
  deriving DecidableEq

/-- `str(x)` for an object whose `__str__` returns the text `t` (`_forest.py:52-53`): Python 2 encodes it in ASCII, and raises `UnicodeEncodeError` (a
`ValueError`) if it cannot. -/
def pyStr (v : PyVersion) (t : Text) : Except PyErr PyString :=
  match v with
  | .three => .ok (.text t)
  | .two => if t.all (fun c => decide (c.toNat < 128)) then .ok (.bytes t) else .error .valueError

/-- `unicode(x)` in Python 2, `str(x)` in Python 3 (`_forest.py:52-53`). -/
def pyText (t : Text) : PyString := .text t

/-- What `Forest(...)` can be given (`_forest.py:6-12`): a string, a forest of the extension, or anything else. -/
inductive ForestArg (D A : Type) where
  | string (s : PyString)
  | native (f : ForestMsg D A)
  | other

section forest
variable {D A N : Type} [Dbl D] [LinearOrder A]

/-- `ForestPy::ToJson` (`forest_py.cc:27-33`); `printJson` is protobuf's text for a value. -/
def asJson (nc : NumCodec D A N) (printJson : Json N → Text) (f : ForestMsg D A) : Except PyErr Text :=
  match forestToJson nc 64 f with
  | .ok j => .ok (printJson j)
  | .error _ => .error (.lib .invalidArgument)

/-- `Forest.__str__` and `str(...)` (`_forest.py:52-53`). -/
def strForest (v : PyVersion) (nc : NumCodec D A N) (printJson : Json N → Text) (f : ForestMsg D A) : Except PyErr PyString :=
  match asJson nc printJson f with
  | .ok t => pyStr v t
  | .error e => .error e

/-- `Forest.__init__` (`_forest.py:6-12`) with `ForestPy::ForestPy` (`forest_py.cc:19-25`); `parseJson` is protobuf's reading of text.  In both versions only
text is taken for JSON. -/
def newForest (nc : NumCodec D A N) (zero : A) (parseJson : Text → Option (Json N)) : ForestArg D A → Except PyErr (ForestMsg D A)
  | .string (.text t) => match parseJson t with
    | some j => match forestFromJson nc zero 100 j with
      | .ok f => .ok f
      | .error _ => .error (.lib .invalidArgument)
    | none => .error (.lib .invalidArgument)
  | .string (.bytes _) => .error .typeError
  | .native f => .ok f
  | .other => .error .typeError

end forest

end Gbdt
