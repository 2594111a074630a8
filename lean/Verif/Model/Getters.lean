import Verif.Model.API

/-!
# The data a model shows

`BaseGP.c_`, `mu_`, `x_train`, `y_train`, `jacobian_train`, base.py 47-65.
-/

namespace GPX

variable {K M C O : Type}

/-- `BaseGP.c_`, base.py 47-49. -/
def GPObj.shownC (m : GPObj (ModelState K M C) O) : Except Err (OptVal C) := m.state.attr cKey

/-- `BaseGP.mu_`, base.py 51-53. -/
def GPObj.shownMu (m : GPObj (ModelState K M C) O) : Except Err (OptVal C) := m.state.attr muKey

/-- `BaseGP.x_train`, base.py 55-57. -/
def GPObj.shownX (m : GPObj (ModelState K M C) O) : Except Err (OptVal C) := m.state.attr xTrainKey

/-- `BaseGP.y_train`, base.py 59-61. -/
def GPObj.shownY (m : GPObj (ModelState K M C) O) : Except Err (OptVal C) := m.state.attr yTrainKey

/-- `BaseGP.jacobian_train`, base.py 63-65. -/
def GPObj.shownJacobian (m : GPObj (ModelState K M C) O) : Except Err (OptVal C) := m.state.attr jacobianTrainKey

end GPX
