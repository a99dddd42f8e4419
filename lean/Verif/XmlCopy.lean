/-
Model of the program testXMLCopy (src/test/testXMLCopy.cc), which reads a geometry file and writes it again.

Simplifications.  An exception, which the program does not catch, ends it before it writes; the destructors of lines 32-33 are left
out.
-/
import Verif.XmlFile

set_option autoImplicit false
set_option linter.unusedSectionVars false

namespace Gear.Xml

/-- `main`, testXMLCopy.cc lines 14-34, with two arguments: the content of the file that is written, for the content of the file
that is read. -/
def copyFile (E : FileEnv) (file : Text) : Res Text := do
  let g ← (createGearMgr E (loadFile file) {}).2
  let doc ← createXMLFile E g
  .ok (printDocument doc)

/-- The program run `n` times, each time on the file written last. -/
def copies (E : FileEnv) : ℕ → Text → Res Text
  | 0, file => .ok file
  | n + 1, file => do
    let file ← copyFile E file
    copies E n file

end Gear.Xml
