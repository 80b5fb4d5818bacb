import Verif.Model.Text

/-!
# Model of `scripts/convert_tsv_to_filatfiles.py`

The script that makes flat files of a TSV file.  Simplification: the table is given by its cells, as `csv.reader` splits it (lines 24-27).
-/

set_option autoImplicit false

namespace Gbdt

/-- `column.replace(' ', '_').replace('/', '_')` (`convert_tsv_to_filatfiles.py:8`). -/
def flatfileName (column : String) : String :=
  String.ofList ((column.toList.map (fun c => if c = ' ' then '_' else c)).map (fun c => if c = '/' then '_' else c))

/-- The first line of a file (`convert_tsv_to_filatfiles.py:12-17`).  That an empty list of string columns is tested for separately makes no
difference. -/
def converterTypeLine (rawFloats strings : List String) (column : String) : Text :=
  if column ∈ rawFloats then "# dtype=raw_floats".toList
  else if column ∈ strings then "# dtype=strings".toList
  else "# dtype=binned_floats".toList

/-- What `print` has written (`convert_tsv_to_filatfiles.py:13-17, 29`). -/
def printLines (lines : List Text) : Text := lines.flatMap (fun l => l ++ ['\n'])

/-- The files that `ConvertTsvToFlatfiles` writes (`convert_tsv_to_filatfiles.py:7-29`), by their names, in the order of the columns; `none` when a row
has more cells than there are columns (`IndexError`).  Each cell goes to the file of its position, so that a row which is short leaves
the last files alone.  Simplification: two columns whose file names are the same are listed as two files; in fact they write into each
other. -/
def convertTsv (rawFloats strings header : List String) (rows : List (List Text)) : Option (List (String × Text)) :=
  if rows.any (fun row => header.length < row.length) then none
  else some (header.zipIdx.map (fun p => (flatfileName p.1,
    printLines (converterTypeLine rawFloats strings p.1 :: rows.filterMap (fun row => row[p.2]?)))))

end Gbdt
