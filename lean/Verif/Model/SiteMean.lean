import Verif.Model.SiteScatter

/-!
# Mean of site responses (site.py:42-53, 88-93)
-/

namespace Qopen.Site

open Real

/-- site.py:91 `np.nanmean(np.log(x))` for a station, `none` for NaN; responses are positive. -/
noncomputable def nanmeanLog (l : List (Option ℝ)) : Option ℝ :=
  let v := (l.filterMap id).map log
  if v.length = 0 then none else some (v.sum / v.length)

/-- site.py:88-93 `_Rmean`, `none` for NaN. -/
noncomputable def rmean (R : List (List (Option ℝ))) : Option ℝ :=
  let v := R.filterMap nanmeanLog
  if v.length = 0 then none else some (v.sum / v.length)

/-- site.py:42-53 `_collectR(results, freqi=i, only=only)`: the values of all stations or of the
given ones (a set: each station once), `KeyError` for a station without entry. -/
def collectR (events : Dict String EvRes) (i : ℕ) (only : Option (List String)) :
    Py (List (List (Option ℝ))) :=
  match only with
  | none => .ok ((stationList events).map (stationValues events i))
  | some l => mapExc (fun s => if s ∈ stationList events then .ok (stationValues events i s)
      else .error .keyError) l                                          -- 47

end Qopen.Site
