import Verif.ClassBody
import Verif.DocText
/-
Model of the text of a generated module: Compiler.py 1744-1802 and 2061-2178. Lines are pairs of the indentation level and
the text. The blank lines around and in the class statement and the docstrings are left out.
-/
namespace Cheetah.ModuleText
open Driver (CC Cf)
open ClassBody (Opts classLines)

/-- What the module says about how it was made (Compiler.py 2062-2077, Version.py): the setting `defDocStrMsg`, the texts of
the version and of the tuple, the time and its text, and the path of the source file with the time of its last change. -/
structure Info where
  docMsg : Str
  version : Str
  versionTuple : Str
  genTime : Str
  genStamp : Str
  src : Option (Str × Str)

/-- `_importStatements` at the start (Compiler.py 1758-1783). Simplification: the package is called `Cheetah`. -/
def firstImports : List (Nat × Str) :=
  [(0, c!"import sys"), (0, c!"import os"), (0, c!"import os.path"), (0, c!"try:"), (1, c!"import builtins as builtin"),
   (0, c!"except ImportError:"), (1, c!"import __builtin__ as builtin"), (0, c!"from os.path import getmtime, exists"),
   (0, c!"import time"), (0, c!"import types"),
   (0, c!"from Cheetah.Version import MinCompatibleVersion as RequiredCheetahVersion"),
   (0, c!"from Cheetah.Version import MinCompatibleVersionTuple as RequiredCheetahVersionTuple"),
   (0, c!"from Cheetah.Template import Template"), (0, c!"from Cheetah.DummyTransaction import *"),
   (0, c!"from Cheetah.NameMapper import NotFound, valueForName, valueFromSearchList, valueFromFrameOrSearchList"),
   (0, c!"from Cheetah.CacheRegion import CacheRegion"), (0, c!"import Cheetah.Filters as Filters"),
   (0, c!"import Cheetah.ErrorCatchers as ErrorCatchers"), (0, c!"from Cheetah.compat import unicode")]

/-- `_moduleConstants` at the start (Compiler.py 1797-1802). -/
def firstConstants : List Str :=
  [c!"VFFSL=valueFromFrameOrSearchList", c!"VFSL=valueFromSearchList", c!"VFN=valueForName", c!"currentTime=time.time"]

/-- The constants that `wrapModuleDef` adds (Compiler.py 2063-2077). -/
def lastConstants (o : Opts) (p : Char → Bool) (i : Info) : List Str :=
  [c!"__CHEETAH_version__ = " ++ pyRepr p i.version, c!"__CHEETAH_versionTuple__ = " ++ i.versionTuple] ++
  (if o.stamps then [c!"__CHEETAH_genTime__ = " ++ i.genTime, c!"__CHEETAH_genTimestamp__ = " ++ pyRepr p i.genStamp] else []) ++
  match i.src with
  | some (path, time) => [c!"__CHEETAH_src__ = " ++ pyRepr p path, c!"__CHEETAH_srcLastModified__ = " ++ pyRepr p time]
  | none => [c!"__CHEETAH_src__ = None", c!"__CHEETAH_srcLastModified__ = None"]

/-- The lines of `specialVars` (Compiler.py 2062, 2149-2155); `special` are those from the comments of the source. -/
def specialLines (p : Char → Bool) (i : Info) (special : Dict Str Str) : List Str :=
  ((Dict.set special c!"__CHEETAH_docstring__" (strip i.docMsg)).foldr Doc.insert []).map fun kv => kv.1 ++ c!" = " ++ pyRepr p kv.2

/-- A section's heading (Compiler.py 2082-2083, 2086-2087, 2097-2098). -/
def heading (s : Str) : List (Nat × Str) := [(0, []), (0, List.replicate 50 '#'), (0, c!"## " ++ s)]

/-- The test of the version (Compiler.py 2091-2095). -/
def versionTest : List (Nat × Str) :=
  [(0, []), (0, c!"if __CHEETAH_versionTuple__ < RequiredCheetahVersionTuple:"), (1, c!"raise AssertionError("),
   (1, c!"  'This template was compiled with Cheetah version'"),
   (1, c!"  ' %s. Templates compiled before version %s must be recompiled.'%("),
   (1, c!"     __CHEETAH_version__, RequiredCheetahVersion))")]

/-- What follows the class (Compiler.py 2102-2110, 2164-2178). -/
def ending (className : Str) : List (Nat × Str) :=
  [(0, []), (0, c!"## END CLASS DEFINITION"), (0, []), (0, c!"if not hasattr(" ++ className ++ c!", '_initCheetahAttributes'):"),
   (1, c!"templateAPIClass = getattr(" ++ className ++ c!","), (1, c!"                           '_CHEETAH_templateClass',"),
   (1, c!"                           Template)"), (1, c!"templateAPIClass._addCheetahPlumbingCodeToClass(" ++ className ++ c!")"),
   (0, []), (0, []), (0, c!"# CHEETAH was developed by Tavis Rudd and Mike Orr"),
   (0, c!"# with code, advice and input from many other volunteers."),
   (0, c!"# For more information visit https://cheetahtemplate.org/"), (0, []), (0, List.replicate 50 '#'),
   (0, c!"## if run from command line:"), (0, c!"if __name__ == '__main__':"),
   (1, c!"from Cheetah.TemplateCmdLineIface import CmdLineIface"), (1, c!"CmdLineIface(templateObj=" ++ className ++ c!"()).run()")]

/-- `moduleHeader` (Compiler.py 2129-2140) as lines; `_moduleEncodingStr` is always empty (1750). -/
def headerLines (offset : Nat) (shBang : Str) (header : List Str) : List (Nat × Str) :=
  [(0, shBang), (0, [])] ++ header.map fun l => (0, '#' :: List.replicate offset ' ' ++ l)

/-- `wrapModuleDef` (Compiler.py 2061-2122). `header` and `special` come from the comments of the source. -/
def moduleLines (o : Opts) (cf : Cf) (i : Info) (offset : Nat) (header : List Str) (special : Dict Str Str) (cc : CC) : List (Nat × Str) :=
  headerLines offset cc.shBang header ++ [(0, []), (0, [])] ++
  heading c!"DEPENDENCIES" ++ firstImports ++ cc.imports.map (0, ·) ++
  heading c!"MODULE CONSTANTS" ++ (firstConstants ++ cc.constants ++ lastConstants o cf.printable i).map (0, ·) ++
  (specialLines cf.printable i special).map (0, ·) ++ versionTest ++
  heading c!"CLASSES" ++ [(0, [])] ++ classLines o cf cc ++ ending cf.className

end Cheetah.ModuleText
