/-
Model of the program mergeXML (src/test/mergeXML.cc) on a file system.

Simplifications.  A file that can be read has a content, and one that can be opened for writing is written completely.  What is printed
on the screen is left out.
-/
import Verif.XmlMerge

set_option autoImplicit false
set_option linter.unusedSectionVars false

namespace Gear.Xml.Merge

/-- What the program sees of the file system: what the files contain that can be opened for reading, and which ones can be opened for
writing. -/
structure Disk where
  content : Text → Option Text
  writable : Text → Bool

/-- A file is written. -/
def Disk.write (d : Disk) (name content : Text) : Disk := { d with content := fun n => if n = name then some content else d.content n }

/-- `TiXmlDocument::LoadFile`, src/gearxml/tinyxml.cc lines 944-1000: the result and the nodes. -/
def load (d : Disk) (name : Text) : Run (Bool × List Node) :=
  match d.content name with
  | none => .ok (false, [])
  | some file => loadFile file

/-- `TiXmlDocument::SaveFile`, src/gearxml/tinyxml.cc lines 1002-1013. -/
def save (d : Disk) (name : Text) (doc : List Node) : Bool × Disk :=
  if d.writable name then (true, d.write name (printDocument doc)) else (false, d)

/-- `main`, mergeXML.cc lines 19-77, with the arguments (`argc` is one more than their number): the exit status and the files after it.
The caught exception of lines 73-75 leads to the end of `main`, of which the status is zero. -/
def mergeXML (args : List Text) (d : Disk) : Run (ℕ × Disk) :=
  match args with
  | secondary :: primary :: target :: _ => do
    let (read1, doc1) ← load d secondary
    if read1 then
      let (read2, doc2) ← load d primary
      if read2 then
        match (mergeFiles (setFile2 (setFile1 {} doc1) doc2)).2 with
        | .ok (some doc) => if (save d target doc).1 then .ok (0, (save d target doc).2) else .ok (1, (save d target doc).2)
        | .ok none => .ok (1, d)
        | .throw _ => .ok (0, d)
        | .ub => .ub
      else .ok (2, d)
    else .ok (2, d)
  | _ => .ok (1, d)

end Gear.Xml.Merge
