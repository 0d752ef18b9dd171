import Verif.Model.FigureSource

/-!
# Options of the figure of a single event

`invert` writes method and options of the source model into the dictionary with the options of the
figure.  The dictionary belongs to the caller and is used again for later events and for the figure
which is drawn after the alignment.
-/

namespace Qopen.EventFigure

open Source Figures

/-- Values in `plot_eventresult_options` (core.py:1044, 1430-1432). -/
inductive FigVal
  | method (m : Option Method)
  | options (d : Dict String Cell)
  | other

/-- `plot_eventresult_options` (core.py:1044, 1430-1432). -/
abbrev FigOpts := Dict String FigVal

/-- The argument `seismic_moment_method` of `plot_eventresult` (imaging.py:463, 484).
Simplification: other values than `None` and the three names raise an exception; in the code other
names count like `None`. -/
def methodOf (o : FigOpts) : Py (Option Method) :=
  match o.get? "seismic_moment_method" with
  | none => .ok none
  | some (.method m) => .ok m
  | some _ => .error .other

/-- The argument `seismic_moment_options` of `plot_eventresult` (imaging.py:463, 485, 407-410). -/
def optionsOf (o : FigOpts) : Py (Dict String Cell) :=
  match o.get? "seismic_moment_options" with
  | none => .ok []
  | some (.options d) => .ok d
  | some _ => .error .attributeError

/-- core.py:1552-1553 `Wok`. -/
def energiesKnown (res : OneRes) : Bool :=
  res.events.any (fun e => (e.2.get? "W").isSome) || (res.top.get? "W").isSome

/-- core.py:1583-1588, the quantities in the figure. -/
def quantitiesOf (res : OneRes) : List String :=
  (if (res.top.get? "g0").isSome then ["g0", "lsc", "Qsc", "b", "li", "Qi"] else []) ++ ["error"] ++
    (if energiesKnown res then ["W", "sds"] else [])

/-- core.py:1582-1596, the figure drawn by `_plot`.  Simplification: the other options (file name, title,
label of the axis) are not part of the model; `v0` and `quantities` are not among them. -/
noncomputable def drawEventresult (o : FigOpts) (res : OneRes) : Py (List (String × EventPanel)) := do
  let smm ← methodOf o
  let smo ← optionsOf o
  plotEventresult res none (quantitiesOf res) smm smo

/-- core.py:1430-1432, `plot_eventresult_options.update(kw)`, in place. -/
def updated (o : FigOpts) (smm : Option Method) (smo : Dict String Cell) : FigOpts :=
  Dict.update o [("seismic_moment_method", .method smm), ("seismic_moment_options", .options smo)]

/-- core.py:1428-1441, the end of `invert` for one event: the options of the figure afterwards and the
figure, if it is wanted.  Exceptions are logged. -/
noncomputable def invertFigure (wanted : Bool) (smm : Option Method) (smo : Dict String Cell)
    (o : FigOpts) (res : OneRes) : FigOpts × Option (Py (List (String × EventPanel))) :=
  if wanted then (updated o smm smo, some (drawEventresult (updated o smm smo) res))
  else (o, none)

/-- core.py:1484-1494, all events with a result one after the other, all with the same dictionary of
options. -/
noncomputable def invertFigures (wanted : Bool) (smm : Option Method) (smo : Dict String Cell) :
    FigOpts → List OneRes → FigOpts × List (Option (Py (List (String × EventPanel))))
  | o, [] => (o, [])
  | o, r :: rs =>
    let f := invertFigure wanted smm smo o r
    let fs := invertFigures wanted smm smo f.1 rs
    (fs.1, f.2 :: fs.2)

/-- core.py:1913-1918, 1943-1955: method and options of the source model are taken out of the arguments,
so that `invert` gets its defaults (core.py:1043); the figure of the selected event is drawn for the
aligned result with the same dictionary of options. -/
noncomputable def alignedFigure (wanted : Bool) (o : FigOpts) (inverted : List OneRes) (aligned : OneRes) :
    Option (Py (List (String × EventPanel))) :=
  if wanted then some (drawEventresult (invertFigures wanted none [] o inverted).1 aligned) else none

/-- core.py:1829-1838, command `plot` for a selected event. -/
noncomputable def plottedFigure (wanted : Bool) (o : FigOpts) (res : OneRes) :
    Option (Py (List (String × EventPanel))) :=
  if wanted then some (drawEventresult o res) else none

end Qopen.EventFigure
