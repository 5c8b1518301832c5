import Verif.Model.Numbers
/-!
# The text of map files

`np.savetxt` as it is called by `save_contact`, `save_pressure` and `save_gap` (`CommandLineInterface/HardWall.py:196-228`).

Simplifications: a file is a list of lines without the line ends (`'\n'` only); floating point numbers are real numbers; the text `str(y)` of a number in a header is a parameter.
-/
namespace CM.MapFile
open CM.Log CM.Num

/-- Lines of a text; the line being read is `cur`. -/
def splitLines (cur : Text) : Text → List Text
  | [] => [cur]
  | c :: s => if c = '\n' then cur :: splitLines [] s else splitLines (cur ++ [c]) s

/-- `'\n'.join(['{} = {}'.format(x, y) for x, y in macro])` (`HardWall.py:197-199`, `214-216`, `226-228`). -/
def macroText (show_ : ℝ → Text) (macr : List (Text × ℝ)) : Text := List.intercalate ['\n'] (macr.map fun p => p.1 ++ [' ', '=', ' '] ++ show_ p.2)

/-- `versionstr + '\n' + commandline + '\n' + macrostr + unitstr` (`HardWall.py:204`, `217`, `229`). -/
def headerText (show_ : ℝ → Text) (version commandline : Text) (macr : List (Text × ℝ)) (unit : Text) : Text :=
  version ++ ['\n'] ++ commandline ++ ['\n'] ++ macroText show_ macr ++ unit

/-- `np.savetxt(fn, rows, fmt=fmt, header=header)`: every line of the header behind `# `, numbers separated by blanks. -/
def savetxt (fmt : ℝ → Text) (header : Text) (rows : List (List ℝ)) : List Text :=
  (splitLines [] header).map (fun l => ['#', ' '] ++ l) ++ rows.map fun r => List.intercalate [' '] (r.map fmt)

/-- `'%i' % b` of a Boolean, given as the number 0 or 1. -/
noncomputable def boolText (x : ℝ) : Text := if x = 0 then ['0'] else ['1']

/-- `save_contact` (`HardWall.py:196-204`); the field has entries 0 and 1. -/
noncomputable def saveContact (show_ : ℝ → Text) (version commandline : Text) (macr : List (Text × ℝ)) (rows : List (List ℝ)) : List Text :=
  savetxt boolText (headerText show_ version commandline macr "Contact map follows. Values are boolean.".toList) rows

/-- `save_pressure` (`HardWall.py:207-217`). -/
noncomputable def savePressure (show_ : ℝ → Text) (young : ℝ) (version commandline : Text) (macr : List (Text × ℝ)) (rows : List (List ℝ)) : List Text :=
  let unitstr := open Classical in if young = 1 then "Pressure values follow, they are reported in units of E*.".toList
    else "This calculation was run with a contact modulus E*=".toList ++ show_ young ++ ['.']
  savetxt (sciText 18) (headerText show_ version commandline macr unitstr) rows

/-- `save_gap` (`HardWall.py:220-229`), for gaps and for displacements. -/
noncomputable def saveGap (show_ : ℝ → Text) (unit : Option Text) (version commandline : Text) (macr : List (Text × ℝ)) (rows : List (List ℝ)) : List Text :=
  let unitstr := match unit with
    | none => "No unit information available.".toList
    | some u => "Gap values follow, they are reported in units of ".toList ++ u ++ ['.']
  savetxt (sciText 18) (headerText show_ version commandline macr unitstr) rows

/-- The names in the list `header` of `dump` (`HardWall.py:164-179`); `one` says whether the modulus is 1, `unit` is the unit of the surface. -/
def dumpNames (one : Bool) (unit : Text) : List Text :=
  ["mean elastic (".toList ++ unit ++ [')'], "mean rigid (".toList ++ unit ++ [')'], "mean gap (".toList ++ unit ++ [')'],
    (if one then "load (E* ".toList else "load ([Units of E*] ".toList) ++ unit ++ "^2)".toList,
    if one then "mean pressure (E*)".toList else "mean pressure ([Units of E*])".toList, "area (".toList ++ unit ++ "^2)".toList, "fractional area".toList]

end CM.MapFile
