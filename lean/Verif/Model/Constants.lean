import Verif.Model.Jurisdictions
/-!
The constants for currencies, countries and jurisdictions in Python: the assignments `scope().attr("X") = currencies::X;` of `esl/python_module_esl.cpp`, with the name of the attribute and the name of the constant. The tables are generated from the source file; names are their
bytes. The submodules are those that `esl/economics/__init__.py`, `esl/geography/__init__.py` and `esl/law/__init__.py` import as `currencies`, `countries` and `jurisdictions`.
-/
namespace Esl.Constants

/-- Assignments to attributes of a module, one after the other: a later one replaces an earlier one with the same name. -/
def assign {α : Type} (m : List Nat → Option α) : List (List Nat × α) → List Nat → Option α
  | [] => m
  | (n, v) :: l => assign (fun x => if x = n then some v else m x) l

/-- python_module_esl.cpp:1811-1987: the assignments in `_currencies`. -/
def currencyAttributes : List (List Nat × List Nat) := [
  ([65, 69, 68], [65, 69, 68]), ([65, 70, 78], [65, 70, 78]), ([65, 76, 76], [65, 76, 76]), ([65, 77, 68], [65, 77, 68]), ([65, 78, 71], [65, 78, 71]),
  ([65, 79, 65], [65, 79, 65]), ([65, 82, 83], [65, 82, 83]), ([65, 85, 68], [65, 85, 68]), ([65, 87, 71], [65, 87, 71]), ([65, 90, 78], [65, 90, 78]),
  ([66, 65, 77], [66, 65, 77]), ([66, 66, 68], [66, 66, 68]), ([66, 68, 84], [66, 68, 84]), ([66, 71, 78], [66, 71, 78]), ([66, 72, 68], [66, 72, 68]),
  ([66, 73, 70], [66, 73, 70]), ([66, 77, 68], [66, 77, 68]), ([66, 78, 68], [66, 78, 68]), ([66, 79, 66], [66, 79, 66]), ([66, 79, 86], [66, 79, 86]),
  ([66, 82, 76], [66, 82, 76]), ([66, 83, 68], [66, 83, 68]), ([66, 84, 78], [66, 84, 78]), ([66, 87, 80], [66, 87, 80]), ([66, 89, 78], [66, 89, 78]),
  ([66, 90, 68], [66, 90, 68]), ([67, 65, 68], [67, 65, 68]), ([67, 68, 70], [67, 68, 70]), ([67, 72, 69], [67, 72, 69]), ([67, 72, 70], [67, 72, 70]),
  ([67, 72, 87], [67, 72, 87]), ([67, 76, 70], [67, 76, 70]), ([67, 76, 80], [67, 76, 80]), ([67, 78, 89], [67, 78, 89]), ([67, 79, 80], [67, 79, 80]),
  ([67, 79, 85], [67, 79, 85]), ([67, 82, 67], [67, 82, 67]), ([67, 85, 67], [67, 85, 67]), ([67, 85, 80], [67, 85, 80]), ([67, 86, 69], [67, 86, 69]),
  ([67, 90, 75], [67, 90, 75]), ([68, 74, 70], [68, 74, 70]), ([68, 75, 75], [68, 75, 75]), ([68, 79, 80], [68, 79, 80]), ([68, 90, 68], [68, 90, 68]),
  ([69, 71, 80], [69, 71, 80]), ([69, 82, 78], [69, 82, 78]), ([69, 84, 66], [69, 84, 66]), ([69, 85, 82], [69, 85, 82]), ([70, 74, 68], [70, 74, 68]),
  ([70, 75, 80], [70, 75, 80]), ([71, 66, 80], [71, 66, 80]), ([71, 69, 76], [71, 69, 76]), ([71, 72, 83], [71, 72, 83]), ([71, 73, 80], [71, 73, 80]),
  ([71, 77, 68], [71, 77, 68]), ([71, 78, 70], [71, 78, 70]), ([71, 84, 81], [71, 84, 81]), ([71, 89, 68], [71, 89, 68]), ([72, 75, 68], [72, 75, 68]),
  ([72, 78, 76], [72, 78, 76]), ([72, 82, 75], [72, 82, 75]), ([72, 84, 71], [72, 84, 71]), ([72, 85, 70], [72, 85, 70]), ([73, 68, 82], [73, 68, 82]),
  ([73, 76, 83], [73, 76, 83]), ([73, 78, 82], [73, 78, 82]), ([73, 81, 68], [73, 81, 68]), ([73, 82, 82], [73, 82, 82]), ([73, 83, 75], [73, 83, 75]),
  ([74, 77, 68], [74, 77, 68]), ([74, 79, 68], [74, 79, 68]), ([74, 80, 89], [74, 80, 89]), ([75, 69, 83], [75, 69, 83]), ([75, 71, 83], [75, 71, 83]),
  ([75, 72, 82], [75, 72, 82]), ([75, 77, 70], [75, 77, 70]), ([75, 80, 87], [75, 80, 87]), ([75, 82, 87], [75, 82, 87]), ([75, 87, 68], [75, 87, 68]),
  ([75, 89, 68], [75, 89, 68]), ([75, 90, 84], [75, 90, 84]), ([76, 65, 75], [76, 65, 75]), ([76, 66, 80], [76, 66, 80]), ([76, 75, 82], [76, 75, 82]),
  ([76, 82, 68], [76, 82, 68]), ([76, 83, 76], [76, 83, 76]), ([76, 89, 68], [76, 89, 68]), ([77, 65, 68], [77, 65, 68]), ([77, 68, 76], [77, 68, 76]),
  ([77, 71, 65], [77, 71, 65]), ([77, 75, 68], [77, 75, 68]), ([77, 77, 75], [77, 77, 75]), ([77, 78, 84], [77, 78, 84]), ([77, 79, 80], [77, 79, 80]),
  ([77, 82, 85], [77, 82, 85]), ([77, 85, 82], [77, 85, 82]), ([77, 86, 82], [77, 86, 82]), ([77, 87, 75], [77, 87, 75]), ([77, 88, 78], [77, 88, 78]),
  ([77, 88, 86], [77, 88, 86]), ([77, 89, 82], [77, 89, 82]), ([77, 90, 78], [77, 90, 78]), ([78, 65, 68], [78, 65, 68]), ([78, 71, 78], [78, 71, 78]),
  ([78, 73, 79], [78, 73, 79]), ([78, 79, 75], [78, 79, 75]), ([78, 80, 82], [78, 80, 82]), ([78, 90, 68], [78, 90, 68]), ([79, 77, 82], [79, 77, 82]),
  ([80, 65, 66], [80, 65, 66]), ([80, 69, 78], [80, 69, 78]), ([80, 71, 75], [80, 71, 75]), ([80, 72, 80], [80, 72, 80]), ([80, 75, 82], [80, 75, 82]),
  ([80, 76, 78], [80, 76, 78]), ([80, 89, 71], [80, 89, 71]), ([81, 65, 82], [81, 65, 82]), ([82, 79, 78], [82, 79, 78]), ([82, 83, 68], [82, 83, 68]),
  ([82, 85, 66], [82, 85, 66]), ([82, 87, 70], [82, 87, 70]), ([83, 65, 82], [83, 65, 82]), ([83, 66, 68], [83, 66, 68]), ([83, 67, 82], [83, 67, 82]),
  ([83, 68, 71], [83, 68, 71]), ([83, 69, 75], [83, 69, 75]), ([83, 71, 68], [83, 71, 68]), ([83, 72, 80], [83, 72, 80]), ([83, 76, 76], [83, 76, 76]),
  ([83, 79, 83], [83, 79, 83]), ([83, 82, 68], [83, 82, 68]), ([83, 83, 80], [83, 83, 80]), ([83, 84, 78], [83, 84, 78]), ([83, 86, 67], [83, 86, 67]),
  ([83, 89, 80], [83, 89, 80]), ([83, 90, 76], [83, 90, 76]), ([84, 72, 66], [84, 72, 66]), ([84, 74, 83], [84, 74, 83]), ([84, 77, 84], [84, 77, 84]),
  ([84, 78, 68], [84, 78, 68]), ([84, 79, 80], [84, 79, 80]), ([84, 82, 89], [84, 82, 89]), ([84, 84, 68], [84, 84, 68]), ([84, 87, 68], [84, 87, 68]),
  ([84, 90, 83], [84, 90, 83]), ([85, 65, 72], [85, 65, 72]), ([85, 71, 88], [85, 71, 88]), ([85, 83, 68], [85, 83, 68]), ([85, 83, 78], [85, 83, 78]),
  ([85, 89, 73], [85, 89, 73]), ([85, 89, 85], [85, 89, 85]), ([85, 90, 83], [85, 90, 83]), ([86, 69, 70], [86, 69, 70]), ([86, 78, 68], [86, 78, 68]),
  ([86, 85, 86], [86, 85, 86]), ([87, 83, 84], [87, 83, 84]), ([88, 65, 70], [88, 65, 70]), ([88, 65, 71], [88, 65, 71]), ([88, 65, 85], [88, 65, 85]),
  ([88, 66, 65], [88, 66, 65]), ([88, 66, 66], [88, 66, 66]), ([88, 66, 67], [88, 66, 67]), ([88, 66, 68], [88, 66, 68]), ([88, 67, 68], [88, 67, 68]),
  ([88, 68, 82], [88, 68, 82]), ([88, 79, 70], [88, 79, 70]), ([88, 80, 68], [88, 80, 68]), ([88, 80, 70], [88, 80, 70]), ([88, 80, 84], [88, 80, 84]),
  ([88, 83, 85], [88, 83, 85]), ([88, 85, 65], [88, 85, 65]), ([88, 88, 88], [88, 88, 88]), ([89, 69, 82], [89, 69, 82]), ([90, 65, 82], [90, 65, 82]),
  ([90, 77, 87], [90, 77, 87]), ([90, 87, 76], [90, 87, 76])]

/-- python_module_esl.cpp:2378-2625: the assignments in `_countries`. -/
def countryAttributes : List (List Nat × List Nat) := [
  ([65, 69], [65, 69]), ([65, 70], [65, 70]), ([65, 71], [65, 71]), ([65, 73], [65, 73]), ([65, 76], [65, 76]), ([65, 77], [65, 77]), ([65, 79], [65, 79]),
  ([65, 81], [65, 81]), ([65, 82], [65, 82]), ([65, 83], [65, 83]), ([65, 84], [65, 84]), ([65, 85], [65, 85]), ([65, 87], [65, 87]), ([65, 88], [65, 88]),
  ([65, 90], [65, 90]), ([66, 65], [66, 65]), ([66, 66], [66, 66]), ([66, 68], [66, 68]), ([66, 69], [66, 69]), ([66, 70], [66, 70]), ([66, 71], [66, 71]),
  ([66, 72], [66, 72]), ([66, 73], [66, 73]), ([66, 74], [66, 74]), ([66, 76], [66, 76]), ([66, 77], [66, 77]), ([66, 78], [66, 78]), ([66, 79], [66, 79]),
  ([66, 81], [66, 81]), ([66, 82], [66, 82]), ([66, 83], [66, 83]), ([66, 84], [66, 84]), ([66, 86], [66, 86]), ([66, 87], [66, 87]), ([66, 89], [66, 89]),
  ([66, 90], [66, 90]), ([67, 65], [67, 65]), ([67, 67], [67, 67]), ([67, 68], [67, 68]), ([67, 70], [67, 70]), ([67, 71], [67, 71]), ([67, 72], [67, 72]),
  ([67, 73], [67, 73]), ([67, 75], [67, 75]), ([67, 76], [67, 76]), ([67, 77], [67, 77]), ([67, 78], [67, 78]), ([67, 79], [67, 79]), ([67, 82], [67, 82]),
  ([67, 85], [67, 85]), ([67, 86], [67, 86]), ([67, 87], [67, 87]), ([67, 88], [67, 88]), ([67, 89], [67, 89]), ([67, 90], [67, 90]), ([68, 69], [68, 69]),
  ([68, 74], [68, 74]), ([68, 75], [68, 75]), ([68, 77], [68, 77]), ([68, 79], [68, 79]), ([68, 90], [68, 90]), ([69, 67], [69, 67]), ([69, 69], [69, 69]),
  ([69, 71], [69, 71]), ([69, 72], [69, 72]), ([69, 82], [69, 82]), ([69, 83], [69, 83]), ([69, 84], [69, 84]), ([70, 73], [70, 73]), ([70, 74], [70, 74]),
  ([70, 75], [70, 75]), ([70, 77], [70, 77]), ([70, 79], [70, 79]), ([70, 82], [70, 82]), ([71, 65], [71, 65]), ([71, 66], [71, 66]), ([71, 68], [71, 68]),
  ([71, 69], [71, 69]), ([71, 70], [71, 70]), ([71, 71], [71, 71]), ([71, 72], [71, 72]), ([71, 73], [71, 73]), ([71, 76], [71, 76]), ([71, 77], [71, 77]),
  ([71, 78], [71, 78]), ([71, 80], [71, 80]), ([71, 81], [71, 81]), ([71, 82], [71, 82]), ([71, 83], [71, 83]), ([71, 84], [71, 84]), ([71, 85], [71, 85]),
  ([71, 87], [71, 87]), ([71, 89], [71, 89]), ([72, 75], [72, 75]), ([72, 77], [72, 77]), ([72, 78], [72, 78]), ([72, 82], [72, 82]), ([72, 84], [72, 84]),
  ([72, 85], [72, 85]), ([73, 68], [73, 68]), ([73, 69], [73, 69]), ([73, 76], [73, 76]), ([73, 77], [73, 77]), ([73, 78], [73, 78]), ([73, 79], [73, 79]),
  ([73, 81], [73, 81]), ([73, 82], [73, 82]), ([73, 83], [73, 83]), ([73, 84], [73, 84]), ([74, 69], [74, 69]), ([74, 77], [74, 77]), ([74, 79], [74, 79]),
  ([74, 80], [74, 80]), ([75, 69], [75, 69]), ([75, 71], [75, 71]), ([75, 72], [75, 72]), ([75, 73], [75, 73]), ([75, 77], [75, 77]), ([75, 78], [75, 78]),
  ([75, 80], [75, 80]), ([75, 82], [75, 82]), ([75, 87], [75, 87]), ([75, 89], [75, 89]), ([75, 90], [75, 90]), ([76, 65], [76, 65]), ([76, 66], [76, 66]),
  ([76, 67], [76, 67]), ([76, 73], [76, 73]), ([76, 75], [76, 75]), ([76, 82], [76, 82]), ([76, 83], [76, 83]), ([76, 84], [76, 84]), ([76, 85], [76, 85]),
  ([76, 86], [76, 86]), ([76, 89], [76, 89]), ([77, 65], [77, 65]), ([77, 67], [77, 67]), ([77, 68], [77, 68]), ([77, 69], [77, 69]), ([77, 70], [77, 70]),
  ([77, 71], [77, 71]), ([77, 72], [77, 72]), ([77, 75], [77, 75]), ([77, 76], [77, 76]), ([77, 77], [77, 77]), ([77, 78], [77, 78]), ([77, 79], [77, 79]),
  ([77, 80], [77, 80]), ([77, 81], [77, 81]), ([77, 82], [77, 82]), ([77, 83], [77, 83]), ([77, 84], [77, 84]), ([77, 85], [77, 85]), ([77, 86], [77, 86]),
  ([77, 87], [77, 87]), ([77, 88], [77, 88]), ([77, 89], [77, 89]), ([77, 90], [77, 90]), ([78, 65], [78, 65]), ([78, 67], [78, 67]), ([78, 69], [78, 69]),
  ([78, 70], [78, 70]), ([78, 71], [78, 71]), ([78, 73], [78, 73]), ([78, 76], [78, 76]), ([78, 79], [78, 79]), ([78, 80], [78, 80]), ([78, 82], [78, 82]),
  ([78, 85], [78, 85]), ([78, 90], [78, 90]), ([79, 77], [79, 77]), ([80, 65], [80, 65]), ([80, 69], [80, 69]), ([80, 70], [80, 70]), ([80, 71], [80, 71]),
  ([80, 72], [80, 72]), ([80, 75], [80, 75]), ([80, 76], [80, 76]), ([80, 77], [80, 77]), ([80, 78], [80, 78]), ([80, 82], [80, 82]), ([80, 83], [80, 83]),
  ([80, 84], [80, 84]), ([80, 87], [80, 87]), ([80, 89], [80, 89]), ([81, 65], [81, 65]), ([82, 69], [82, 69]), ([82, 79], [82, 79]), ([82, 83], [82, 83]),
  ([82, 85], [82, 85]), ([82, 87], [82, 87]), ([83, 65], [83, 65]), ([83, 66], [83, 66]), ([83, 67], [83, 67]), ([83, 68], [83, 68]), ([83, 69], [83, 69]),
  ([83, 71], [83, 71]), ([83, 72], [83, 72]), ([83, 73], [83, 73]), ([83, 74], [83, 74]), ([83, 75], [83, 75]), ([83, 76], [83, 76]), ([83, 77], [83, 77]),
  ([83, 78], [83, 78]), ([83, 79], [83, 79]), ([83, 82], [83, 82]), ([83, 83], [83, 83]), ([83, 84], [83, 84]), ([83, 86], [83, 86]), ([83, 88], [83, 88]),
  ([83, 89], [83, 89]), ([83, 90], [83, 90]), ([84, 67], [84, 67]), ([84, 68], [84, 68]), ([84, 70], [84, 70]), ([84, 71], [84, 71]), ([84, 72], [84, 72]),
  ([84, 74], [84, 74]), ([84, 75], [84, 75]), ([84, 76], [84, 76]), ([84, 77], [84, 77]), ([84, 78], [84, 78]), ([84, 79], [84, 79]), ([84, 82], [84, 82]),
  ([84, 84], [84, 84]), ([84, 86], [84, 86]), ([84, 87], [84, 87]), ([84, 90], [84, 90]), ([85, 65], [85, 65]), ([85, 71], [85, 71]), ([85, 77], [85, 77]),
  ([85, 83], [85, 83]), ([85, 89], [85, 89]), ([85, 90], [85, 90]), ([86, 65], [86, 65]), ([86, 67], [86, 67]), ([86, 69], [86, 69]), ([86, 71], [86, 71]),
  ([86, 73], [86, 73]), ([86, 78], [86, 78]), ([86, 85], [86, 85]), ([87, 70], [87, 70]), ([87, 83], [87, 83]), ([89, 69], [89, 69]), ([89, 84], [89, 84]),
  ([90, 65], [90, 65]), ([90, 77], [90, 77]), ([90, 87], [90, 87])]

/-- python_module_esl.cpp:2760-3003: the assignments in `_jurisdictions`. -/
def jurisdictionAttributes : List (List Nat × List Nat) := [
  ([65, 70], [65, 70]), ([65, 76], [65, 76]), ([68, 90], [68, 90]), ([65, 83], [65, 83]), ([65, 68], [65, 68]), ([65, 79], [65, 79]), ([65, 73], [65, 73]),
  ([65, 71], [65, 71]), ([65, 82], [65, 82]), ([65, 77], [65, 77]), ([65, 87], [65, 87]), ([65, 85], [65, 85]), ([65, 84], [65, 84]), ([65, 90], [65, 90]),
  ([66, 83], [66, 83]), ([66, 72], [66, 72]), ([66, 68], [66, 68]), ([66, 66], [66, 66]), ([66, 89], [66, 89]), ([66, 69], [66, 69]), ([66, 90], [66, 90]),
  ([66, 74], [66, 74]), ([66, 77], [66, 77]), ([66, 84], [66, 84]), ([66, 79], [66, 79]), ([66, 81], [66, 81]), ([66, 65], [66, 65]), ([66, 87], [66, 87]),
  ([66, 86], [66, 86]), ([66, 82], [66, 82]), ([73, 79], [73, 79]), ([86, 71], [86, 71]), ([66, 78], [66, 78]), ([66, 71], [66, 71]), ([66, 70], [66, 70]),
  ([66, 73], [66, 73]), ([67, 86], [67, 86]), ([75, 72], [75, 72]), ([67, 77], [67, 77]), ([67, 65], [67, 65]), ([75, 89], [75, 89]), ([67, 70], [67, 70]),
  ([84, 68], [84, 68]), ([67, 76], [67, 76]), ([67, 78], [67, 78]), ([72, 75], [72, 75]), ([77, 79], [77, 79]), ([67, 88], [67, 88]), ([67, 67], [67, 67]),
  ([67, 79], [67, 79]), ([75, 77], [75, 77]), ([67, 71], [67, 71]), ([67, 75], [67, 75]), ([67, 82], [67, 82]), ([72, 82], [72, 82]), ([67, 85], [67, 85]),
  ([67, 87], [67, 87]), ([67, 89], [67, 89]), ([67, 90], [67, 90]), ([67, 73], [67, 73]), ([75, 80], [75, 80]), ([67, 68], [67, 68]), ([68, 75], [68, 75]),
  ([68, 74], [68, 74]), ([68, 77], [68, 77]), ([68, 79], [68, 79]), ([69, 67], [69, 67]), ([69, 71], [69, 71]), ([83, 86], [83, 86]), ([71, 81], [71, 81]),
  ([69, 82], [69, 82]), ([69, 69], [69, 69]), ([69, 84], [69, 84]), ([70, 79], [70, 79]), ([70, 74], [70, 74]), ([70, 73], [70, 73]), ([70, 82], [70, 82]),
  ([71, 70], [71, 70]), ([80, 70], [80, 70]), ([84, 70], [84, 70]), ([71, 65], [71, 65]), ([71, 77], [71, 77]), ([71, 69], [71, 69]), ([68, 69], [68, 69]),
  ([71, 72], [71, 72]), ([71, 73], [71, 73]), ([71, 82], [71, 82]), ([71, 76], [71, 76]), ([71, 68], [71, 68]), ([71, 80], [71, 80]), ([71, 85], [71, 85]),
  ([71, 84], [71, 84]), ([71, 71], [71, 71]), ([71, 78], [71, 78]), ([71, 87], [71, 87]), ([71, 89], [71, 89]), ([72, 84], [72, 84]), ([72, 77], [72, 77]),
  ([86, 65], [86, 65]), ([72, 78], [72, 78]), ([72, 85], [72, 85]), ([73, 83], [73, 83]), ([73, 78], [73, 78]), ([73, 68], [73, 68]), ([73, 82], [73, 82]),
  ([73, 81], [73, 81]), ([73, 69], [73, 69]), ([73, 77], [73, 77]), ([73, 76], [73, 76]), ([73, 84], [73, 84]), ([74, 77], [74, 77]), ([74, 80], [74, 80]),
  ([74, 69], [74, 69]), ([74, 79], [74, 79]), ([75, 90], [75, 90]), ([75, 69], [75, 69]), ([75, 73], [75, 73]), ([75, 87], [75, 87]), ([75, 71], [75, 71]),
  ([76, 65], [76, 65]), ([76, 86], [76, 86]), ([76, 66], [76, 66]), ([76, 83], [76, 83]), ([76, 82], [76, 82]), ([76, 89], [76, 89]), ([76, 73], [76, 73]),
  ([76, 84], [76, 84]), ([76, 85], [76, 85]), ([77, 71], [77, 71]), ([77, 87], [77, 87]), ([77, 89], [77, 89]), ([77, 86], [77, 86]), ([77, 76], [77, 76]),
  ([77, 84], [77, 84]), ([77, 72], [77, 72]), ([77, 81], [77, 81]), ([77, 82], [77, 82]), ([77, 85], [77, 85]), ([89, 84], [89, 84]), ([77, 88], [77, 88]),
  ([70, 77], [70, 77]), ([77, 67], [77, 67]), ([77, 78], [77, 78]), ([77, 69], [77, 69]), ([77, 83], [77, 83]), ([77, 65], [77, 65]), ([77, 90], [77, 90]),
  ([77, 77], [77, 77]), ([78, 65], [78, 65]), ([78, 82], [78, 82]), ([78, 80], [78, 80]), ([78, 76], [78, 76]), ([78, 67], [78, 67]), ([78, 90], [78, 90]),
  ([78, 73], [78, 73]), ([78, 69], [78, 69]), ([78, 71], [78, 71]), ([78, 85], [78, 85]), ([78, 70], [78, 70]), ([77, 80], [77, 80]), ([78, 79], [78, 79]),
  ([79, 77], [79, 77]), ([80, 75], [80, 75]), ([80, 87], [80, 87]), ([80, 65], [80, 65]), ([80, 71], [80, 71]), ([80, 89], [80, 89]), ([80, 69], [80, 69]),
  ([80, 72], [80, 72]), ([80, 78], [80, 78]), ([80, 76], [80, 76]), ([80, 84], [80, 84]), ([80, 82], [80, 82]), ([81, 65], [81, 65]), ([75, 82], [75, 82]),
  ([77, 68], [77, 68]), ([82, 79], [82, 79]), ([82, 85], [82, 85]), ([82, 87], [82, 87]), ([82, 69], [82, 69]), ([66, 76], [66, 76]), ([83, 72], [83, 72]),
  ([75, 78], [75, 78]), ([76, 67], [76, 67]), ([77, 70], [77, 70]), ([80, 77], [80, 77]), ([86, 67], [86, 67]), ([87, 83], [87, 83]), ([83, 77], [83, 77]),
  ([83, 84], [83, 84]), ([83, 65], [83, 65]), ([83, 78], [83, 78]), ([82, 83], [82, 83]), ([83, 67], [83, 67]), ([83, 76], [83, 76]), ([83, 71], [83, 71]),
  ([83, 88], [83, 88]), ([83, 75], [83, 75]), ([83, 73], [83, 73]), ([83, 66], [83, 66]), ([83, 79], [83, 79]), ([90, 65], [90, 65]), ([83, 83], [83, 83]),
  ([69, 83], [69, 83]), ([76, 75], [76, 75]), ([83, 68], [83, 68]), ([83, 82], [83, 82]), ([83, 74], [83, 74]), ([83, 90], [83, 90]), ([83, 69], [83, 69]),
  ([67, 72], [67, 72]), ([83, 89], [83, 89]), ([84, 74], [84, 74]), ([84, 72], [84, 72]), ([77, 75], [77, 75]), ([84, 76], [84, 76]), ([84, 71], [84, 71]),
  ([84, 75], [84, 75]), ([84, 79], [84, 79]), ([84, 84], [84, 84]), ([84, 78], [84, 78]), ([84, 82], [84, 82]), ([84, 77], [84, 77]), ([84, 67], [84, 67]),
  ([84, 86], [84, 86]), ([85, 71], [85, 71]), ([85, 65], [85, 65]), ([65, 69], [65, 69]), ([71, 66], [71, 66]), ([84, 90], [84, 90]), ([85, 77], [85, 77]),
  ([86, 73], [86, 73]), ([85, 83], [85, 83]), ([85, 89], [85, 89]), ([85, 90], [85, 90]), ([86, 85], [86, 85]), ([86, 69], [86, 69]), ([86, 78], [86, 78]),
  ([87, 70], [87, 70]), ([69, 72], [69, 72]), ([89, 69], [89, 69]), ([90, 77], [90, 77]), ([90, 87], [90, 87]), ([65, 88], [65, 88])]

/-- The constant of `currencies.hpp` with a name, with its code and denominator. The constants are named as their codes (the table `Names.currencies`). -/
def currencyConstant (n : List Nat) : Option (List Nat × Nat) := Names.currencies.find? fun e => e.1 == n

/-- The constant of `countries.hpp` with a name; it is named as its code. -/
def countryConstant (n : List Nat) : Option (List Nat) := Names.countries.find? fun c => c == n

/-- The constant of `jurisdictions.hpp` with a name, with its country and currency. -/
def jurisdictionConstant (n : List Nat) : Option (List Nat × List Nat) := (Names.jurisdictions.find? fun e => e.1 == n).map (·.2)

/-- `esl.economics.currencies.X` in Python: the constant that was assigned, if there is an attribute; otherwise an `AttributeError`. -/
def pythonCurrency (n : List Nat) : Option (List Nat × Nat) := (assign (fun _ => none) currencyAttributes n).bind currencyConstant

/-- `esl.geography.countries.X` in Python. -/
def pythonCountry (n : List Nat) : Option (List Nat) := (assign (fun _ => none) countryAttributes n).bind countryConstant

/-- `esl.law.jurisdictions.X` in Python. -/
def pythonJurisdiction (n : List Nat) : Option (List Nat × List Nat) := (assign (fun _ => none) jurisdictionAttributes n).bind jurisdictionConstant

end Esl.Constants
