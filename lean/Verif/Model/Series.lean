import Verif.Model.Lemire

/-!
# A time series as seen by the distance functions (src/TimeSeries.hpp, src/TimeSeries.cpp)

`Series` is a `TimeSeries` whose data pointer has been resolved: `vals` are the values
`data[start] .. data[end-1]`.  How views are resolved against a dataset buffer (and when that is
undefined) is in `Model/Dataset.lean`; ownership and aliasing of `TimeSeries` objects are in
`Model/SeriesObj.lean`.
-/

namespace Onex

/-- The mutable envelope cache, src/TimeSeries.hpp:182-185 (present iff `keoghCacheValid`).
`cachedWarpingBand` is declared `double` but only ever holds an `int`. -/
structure Cache (α : Type) where
  band : Int
  lower : List α
  upper : List α

/-- src/TimeSeries.hpp:173-185, restricted to what can be observed through a resolved view. -/
structure Series (α : Type) where
  vals : List α
  cache : Option (Cache α)

/-- A series without cached envelope (every constructor, src/TimeSeries.hpp:48-101). -/
def Series.mk' {α : Type} (vals : List α) : Series α := { vals := vals, cache := none }

variable {α : Type} [DataT α]

/-- `getLength()`, src/TimeSeries.hpp:143 -/
def Series.length (s : Series α) : Int := len s.vals

/-- `operator[]`, src/TimeSeries.cpp:62-68 -/
def tsGet {α : Type} (vals : List α) (idx : Int) : Res α :=
  if idx < 0 ∨ idx ≥ len vals then .throw "Data point index is out of range"
  else vget vals idx

/-- `generateKeoghLU`, src/TimeSeries.cpp:102-119.  The freshly allocated arrays hold
arbitrary values `junk`. -/
def generateKeoghLU (junk : α) (vals : List α) (warpingBand : Int) : Res (List α × List α) :=
  let warpingBand := min warpingBand (len vals - 1)
  let fresh := List.replicate vals.length junk
  lowerUpperLemire vals (len vals) warpingBand fresh fresh

/-- `getKeoghLower` / `getKeoghUpper`, src/TimeSeries.cpp:84-100: both refresh the cache when
it is invalid or was computed for another band, and return one of the two arrays.
Returns `(lower, upper)` and the series with its refreshed cache. -/
def getKeogh (junk : α) (s : Series α) (warpingBand : Int) :
    Res ((List α × List α) × Series α) :=
  match s.cache with
  | some c =>
    if c.band = warpingBand then .ok ((c.lower, c.upper), s)
    else do
      let (l, u) ← generateKeoghLU junk s.vals warpingBand
      return ((l, u), { s with cache := some { band := warpingBand, lower := l, upper := u } })
  | none => do
    let (l, u) ← generateKeoghLU junk s.vals warpingBand
    return ((l, u), { s with cache := some { band := warpingBand, lower := l, upper := u } })

end Onex
