import Verif.Model.Run

/-!
# Files during and after a run of `run` (core.py:1762-1777, 1939-1978)

The effects of `run` (`Run.Effect`) are given a meaning as changes of files, and every effect may be
interrupted at any moment, by a kill signal, a power cut or an exception of the file system.  Contents
of files are texts.  Simplifications: data handed to the operating system are not lost, and other
programs do not change the files meanwhile.
-/

namespace Qopen.Run

/-- Contents of all files, `none` for a missing file (core.py:1762-1777, 1967-1971). -/
abbrev Files := String → Option (List Char)

/-- The file gets new contents (core.py:1762-1777, 1970). -/
def Files.put (fs : Files) (f : String) (t : List Char) : Files :=
  fun g => if g = f then some t else fs g

/-- What is known about the world of a run with respect to files. -/
structure World where
  /-- text written by `json.dump(result, f, indent=indent)` -/
  text : J → J → List Char
  /-- text of an example file of the package (core.py:1774-1776) -/
  example_ : String → List Char
  /-- files which may be written by the logging handlers, by the inversion and the figures -/
  other : String → Prop

/-- Effects which do not deal with the output file or example files (core.py:1762-1777, 1967-1971). -/
def Effect.plainOne : Effect → Prop
  | .openW _ => False
  | .dump _ _ _ => False
  | .copy _ _ => False
  | _ => True

/-- Files at any moment while an effect happens.  `open(fname, 'w')` (core.py:1970) truncates the file
at once if it succeeds; `json.dump` (core.py:1971) writes the text piece by piece; `shutil.copyfile`
(core.py:1776) also does. -/
inductive During (env : Env) (w : World) : Effect → Files → Files → Prop
  | before (e : Effect) (fs : Files) : During env w e fs fs
  | opened (f : String) (fs : Files) : env.openW f = .ok () →
      During env w (.openW f) fs (fs.put f [])
  | writing (f : String) (r i : J) (fs : Files) (p : List Char) : p <+: w.text r i →
      During env w (.dump f r i) fs (fs.put f p)
  | copying (src dest : String) (fs : Files) (p : List Char) : p <+: w.example_ src →
      During env w (.copy src dest) fs (fs.put dest p)
  | other (e : Effect) (fs fs' : Files) : e.plainOne → (∀ f, ¬ w.other f → fs' f = fs f) →
      During env w e fs fs'

/-- Files when an effect has ended, with or without an exception: `open` may fail (core.py:1970),
`json.dump` fails in the middle for objects which are not serialisable (core.py:1971). -/
inductive After (env : Env) (w : World) : Effect → Files → Files → Prop
  | opened (f : String) (fs : Files) : env.openW f = .ok () →
      After env w (.openW f) fs (fs.put f [])
  | notOpened (f : String) (fs : Files) (x : PyErr) : env.openW f = .error x →
      After env w (.openW f) fs fs
  | written (f : String) (r i : J) (fs : Files) : r.plain = true →
      After env w (.dump f r i) fs (fs.put f (w.text r i))
  | failed (f : String) (r i : J) (fs : Files) (p : List Char) : r.plain = false →
      p <+: w.text r i → After env w (.dump f r i) fs (fs.put f p)
  | copied (src dest : String) (fs : Files) :
      After env w (.copy src dest) fs (fs.put dest (w.example_ src))
  | other (e : Effect) (fs fs' : Files) : e.plainOne → (∀ f, ¬ w.other f → fs' f = fs f) →
      After env w e fs fs'

/-- Files at any moment of a run with the given effects: some effects have ended, the next one is under
way (core.py:1716-1978). -/
inductive Seen (env : Env) (w : World) : List Effect → Files → Files → Prop
  | start (l : List Effect) (fs : Files) : Seen env w l fs fs
  | during (e : Effect) (l : List Effect) (fs fs' : Files) : During env w e fs fs' →
      Seen env w (e :: l) fs fs'
  | next (e : Effect) (l : List Effect) (fs fs1 fs' : Files) : After env w e fs fs1 →
      Seen env w l fs1 fs' → Seen env w (e :: l) fs fs'

/-- Files after a run which returned or raised an exception: all its effects have ended
(core.py:1716-1978). -/
inductive Ended (env : Env) (w : World) : List Effect → Files → Files → Prop
  | nil (fs : Files) : Ended env w [] fs fs
  | cons (e : Effect) (l : List Effect) (fs fs1 fs' : Files) : After env w e fs fs1 →
      Ended env w l fs1 fs' → Ended env w (e :: l) fs fs'

end Qopen.Run
