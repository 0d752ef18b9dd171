import Verif.Model.Site

/-!
# Scatter of site responses reported by the alignment (site.py:42-53, 96-101, 270-271, 346-353)
-/

namespace Qopen.Site

open Real

/-- site.py:42-53 `_collectR(results, freqi=i)[sta]`: values of a station in one band, `none` for
`None` and NaN. -/
def stationValues (events : Dict String EvRes) (i : ℕ) (sta : String) : List (Option ℝ) :=
  (stationRows events sta).map (fun l => cellAt l i)

/-- site.py:99 `np.nanstd(np.log(x))`, `none` for NaN; responses are positive. -/
noncomputable def nanstdLog (l : List (Option ℝ)) : Option ℝ :=
  let v := (l.filterMap id).map log
  if v.length = 0 then none
  else some (sqrt ((v.map (fun x => (x - v.sum / v.length) ^ 2)).sum / v.length))

/-- site.py:96-101 `_Rstd`, `none` for NaN. -/
noncomputable def rstd (R : List (List (Option ℝ))) : Option ℝ :=
  let v := R.filterMap nanstdLog
  if v.length = 0 then none else some (v.sum / v.length)

/-- site.py:261-271, an element of `std_before`; the order of the stations of an area (a set) does not
matter. -/
noncomputable def stdBefore (events : Dict String EvRes) (i : ℕ) (ignore : Option (List String)) :
    Option ℝ :=
  match largest (findAreas events i ignore) with
  | none => none
  | some area => rstd (area.toList.map (stationValues events i))

/-- site.py:348-349, an element of `std_after`. -/
noncomputable def stdAfter (events : Dict String EvRes) (i : ℕ) : Option ℝ :=
  rstd ((stationList events).map (stationValues events i))

end Qopen.Site
