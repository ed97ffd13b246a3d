import Verif.Model.Group

/-!
# Ordering of match candidates (src/TimeSeries.hpp:204-219)
-/

namespace Onex

variable {α : Type} [DataT α]

/-- `candidate_time_series_t::operator<`, src/TimeSeries.hpp:204-219.  `abs` is taken to be the
floating-point overload. -/
def Cand.lt (x y : Cand α) : Bool :=
  if DataT.lt (DataT.abs (DataT.sub x.dist y.dist)) DataT.eps then
    if x.ts.index = y.ts.index then
      if x.ts.start = y.ts.start then decide (x.ts.length < y.ts.length)
      else decide (x.ts.start < y.ts.start)
    else decide (x.ts.index < y.ts.index)
  else DataT.lt x.dist y.dist

/-- The same operator when the unqualified `abs` at src/TimeSeries.hpp:206 resolves to the C function `int abs(int)`, as it
does when the standard library puts only that one into the global namespace: the difference is converted to `int` (undefined when it does not
fit), so that the comparison with `EPS` tests whether the truncated difference is 0. -/
def Cand.ltInt (x y : Cand α) : Res Bool :=
  match DataT.floorInt (DataT.abs (DataT.sub x.dist y.dist)) with
  | none => .ub "conversion to int out of range"
  | some k =>
    if k = 0 then
      if x.ts.index = y.ts.index then
        if x.ts.start = y.ts.start then .ok (decide (x.ts.length < y.ts.length))
        else .ok (decide (x.ts.start < y.ts.start))
      else .ok (decide (x.ts.index < y.ts.index))
    else .ok (DataT.lt x.dist y.dist)

/-- `group_index_t::operator<`, src/Group.hpp:52-55, on the `dist` fields. -/
def groupIndexLt (x y : α) : Bool := DataT.lt x y

end Onex
