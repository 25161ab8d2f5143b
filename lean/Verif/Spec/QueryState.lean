import Verif.Model.QueryState

/-! The words of C110. -/

namespace Scim
namespace V

/-- What the caller gets for a request, the query string aside. -/
def Answer := Except PyErr (Val × Val × Issues)

/-- The answer of a request. -/
def answer : PyM (Request × Issues) → Answer
  | .error e => .error e
  | .ok (r, is) => .ok (r.headers, r.body, is)

end V
end Scim
