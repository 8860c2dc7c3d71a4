import Verif.Model.Names
/-!
The table of jurisdictions: `esl/law/jurisdictions.hpp` and `jurisdiction.hpp`. It is generated from the source file.
-/
namespace Esl.Names

/-- jurisdictions.hpp:35-278: the name of each constant, and the codes of its country and of its currency. -/
def jurisdictions : List (List Nat × List Nat × List Nat) := [
  ([65, 70], [65, 70], [65, 70, 78]), ([65, 76], [65, 76], [65, 76, 76]), ([68, 90], [68, 90], [68, 90, 68]), ([65, 83], [65, 83], [85, 83, 68]), ([65, 68], [65, 68], [69, 85, 82]),
  ([65, 79], [65, 79], [65, 79, 65]), ([65, 73], [65, 73], [88, 67, 68]), ([65, 71], [65, 71], [88, 67, 68]), ([65, 82], [65, 82], [65, 82, 83]), ([65, 77], [65, 77], [65, 77, 68]),
  ([65, 87], [65, 87], [65, 87, 71]), ([65, 85], [65, 85], [65, 85, 68]), ([65, 84], [65, 84], [69, 85, 82]), ([65, 90], [65, 90], [65, 90, 78]), ([66, 83], [66, 83], [66, 83, 68]),
  ([66, 72], [66, 72], [66, 72, 68]), ([66, 68], [66, 68], [66, 68, 84]), ([66, 66], [66, 66], [66, 66, 68]), ([66, 89], [66, 89], [66, 89, 78]), ([66, 69], [66, 69], [69, 85, 82]),
  ([66, 90], [66, 90], [66, 90, 68]), ([66, 74], [66, 74], [88, 79, 70]), ([66, 77], [66, 77], [66, 77, 68]), ([66, 84], [66, 84], [66, 84, 78]), ([66, 79], [66, 79], [66, 79, 66]),
  ([66, 81], [66, 81], [85, 83, 68]), ([66, 65], [66, 65], [66, 65, 77]), ([66, 87], [66, 87], [66, 87, 80]), ([66, 86], [66, 86], [78, 79, 75]), ([66, 82], [66, 82], [66, 82, 76]),
  ([73, 79], [73, 79], [85, 83, 68]), ([86, 71], [86, 71], [85, 83, 68]), ([66, 78], [66, 78], [66, 78, 68]), ([66, 71], [66, 71], [66, 71, 78]), ([66, 70], [66, 70], [88, 79, 70]),
  ([66, 73], [66, 73], [66, 73, 70]), ([67, 86], [67, 86], [67, 86, 69]), ([75, 72], [75, 72], [75, 72, 82]), ([67, 77], [67, 77], [88, 65, 70]), ([67, 65], [67, 65], [67, 65, 68]),
  ([75, 89], [75, 89], [75, 89, 68]), ([67, 70], [67, 70], [88, 65, 70]), ([84, 68], [84, 68], [88, 65, 70]), ([67, 76], [67, 76], [67, 76, 80]), ([67, 78], [67, 78], [67, 78, 89]),
  ([72, 75], [72, 75], [72, 75, 68]), ([77, 79], [77, 79], [77, 79, 80]), ([67, 88], [67, 88], [65, 85, 68]), ([67, 67], [67, 67], [65, 85, 68]), ([67, 79], [67, 79], [67, 79, 80]),
  ([75, 77], [75, 77], [75, 77, 70]), ([67, 71], [67, 71], [88, 65, 70]), ([67, 75], [67, 75], [78, 90, 68]), ([67, 82], [67, 82], [67, 82, 67]), ([72, 82], [72, 82], [72, 82, 75]),
  ([67, 85], [67, 85], [67, 85, 80]), ([67, 87], [67, 87], [65, 78, 71]), ([67, 89], [67, 89], [69, 85, 82]), ([67, 90], [67, 90], [67, 90, 75]), ([67, 73], [67, 73], [88, 79, 70]),
  ([75, 80], [75, 80], [75, 80, 87]), ([67, 68], [67, 68], [67, 68, 70]), ([68, 75], [68, 75], [68, 75, 75]), ([68, 74], [68, 74], [68, 74, 70]), ([68, 77], [68, 77], [88, 67, 68]),
  ([68, 79], [68, 79], [68, 79, 80]), ([69, 67], [69, 67], [85, 83, 68]), ([69, 71], [69, 71], [69, 71, 80]), ([83, 86], [83, 86], [83, 86, 67]), ([71, 81], [71, 81], [88, 65, 70]),
  ([69, 82], [69, 82], [69, 82, 78]), ([69, 69], [69, 69], [69, 85, 82]), ([69, 84], [69, 84], [69, 84, 66]), ([70, 79], [70, 79], [68, 75, 75]), ([70, 74], [70, 74], [70, 74, 68]),
  ([70, 73], [70, 73], [69, 85, 82]), ([70, 82], [70, 82], [69, 85, 82]), ([71, 70], [71, 70], [69, 85, 82]), ([80, 70], [80, 70], [88, 80, 70]), ([84, 70], [84, 70], [69, 85, 82]),
  ([71, 65], [71, 65], [88, 65, 70]), ([71, 77], [71, 77], [71, 77, 68]), ([71, 69], [71, 69], [71, 69, 76]), ([68, 69], [68, 69], [69, 85, 82]), ([71, 72], [71, 72], [71, 72, 83]),
  ([71, 73], [71, 73], [71, 73, 80]), ([71, 82], [71, 82], [69, 85, 82]), ([71, 76], [71, 76], [68, 75, 75]), ([71, 68], [71, 68], [88, 67, 68]), ([71, 80], [71, 80], [69, 85, 82]),
  ([71, 85], [71, 85], [85, 83, 68]), ([71, 84], [71, 84], [71, 84, 81]), ([71, 71], [71, 71], [71, 66, 80]), ([71, 78], [71, 78], [71, 78, 70]), ([71, 87], [71, 87], [88, 79, 70]),
  ([71, 89], [71, 89], [71, 89, 68]), ([72, 84], [72, 84], [72, 84, 71]), ([72, 77], [72, 77], [65, 85, 68]), ([86, 65], [86, 65], [69, 85, 82]), ([72, 78], [72, 78], [72, 78, 76]),
  ([72, 85], [72, 85], [72, 85, 70]), ([73, 83], [73, 83], [73, 83, 75]), ([73, 78], [73, 78], [73, 78, 82]), ([73, 68], [73, 68], [73, 68, 82]), ([73, 82], [73, 82], [73, 82, 82]),
  ([73, 81], [73, 81], [73, 81, 68]), ([73, 69], [73, 69], [69, 85, 82]), ([73, 77], [73, 77], [71, 66, 80]), ([73, 76], [73, 76], [73, 76, 83]), ([73, 84], [73, 84], [69, 85, 82]),
  ([74, 77], [74, 77], [74, 77, 68]), ([74, 80], [74, 80], [74, 80, 89]), ([74, 69], [74, 69], [71, 66, 80]), ([74, 79], [74, 79], [74, 79, 68]), ([75, 90], [75, 90], [75, 90, 84]),
  ([75, 69], [75, 69], [75, 69, 83]), ([75, 73], [75, 73], [65, 85, 68]), ([75, 87], [75, 87], [75, 87, 68]), ([75, 71], [75, 71], [75, 71, 83]), ([76, 65], [76, 65], [76, 65, 75]),
  ([76, 86], [76, 86], [69, 85, 82]), ([76, 66], [76, 66], [76, 66, 80]), ([76, 83], [76, 83], [76, 83, 76]), ([76, 82], [76, 82], [76, 82, 68]), ([76, 89], [76, 89], [76, 89, 68]),
  ([76, 73], [76, 73], [67, 72, 70]), ([76, 84], [76, 84], [69, 85, 82]), ([76, 85], [76, 85], [69, 85, 82]), ([77, 71], [77, 71], [77, 71, 65]), ([77, 87], [77, 87], [77, 87, 75]),
  ([77, 89], [77, 89], [77, 89, 82]), ([77, 86], [77, 86], [77, 86, 82]), ([77, 76], [77, 76], [88, 79, 70]), ([77, 84], [77, 84], [69, 85, 82]), ([77, 72], [77, 72], [85, 83, 68]),
  ([77, 81], [77, 81], [69, 85, 82]), ([77, 82], [77, 82], [77, 82, 85]), ([77, 85], [77, 85], [77, 85, 82]), ([89, 84], [89, 84], [69, 85, 82]), ([77, 88], [77, 88], [77, 88, 78]),
  ([70, 77], [70, 77], [85, 83, 68]), ([77, 67], [77, 67], [69, 85, 82]), ([77, 78], [77, 78], [77, 78, 84]), ([77, 69], [77, 69], [69, 85, 82]), ([77, 83], [77, 83], [88, 67, 68]),
  ([77, 65], [77, 65], [77, 65, 68]), ([77, 90], [77, 90], [77, 90, 78]), ([77, 77], [77, 77], [77, 77, 75]), ([78, 65], [78, 65], [78, 65, 68]), ([78, 82], [78, 82], [65, 85, 68]),
  ([78, 80], [78, 80], [78, 80, 82]), ([78, 76], [78, 76], [69, 85, 82]), ([78, 67], [78, 67], [88, 80, 70]), ([78, 90], [78, 90], [78, 90, 68]), ([78, 73], [78, 73], [78, 73, 79]),
  ([78, 69], [78, 69], [88, 79, 70]), ([78, 71], [78, 71], [78, 71, 78]), ([78, 85], [78, 85], [78, 90, 68]), ([78, 70], [78, 70], [65, 85, 68]), ([77, 80], [77, 80], [85, 83, 68]),
  ([78, 79], [78, 79], [78, 79, 75]), ([79, 77], [79, 77], [79, 77, 82]), ([80, 75], [80, 75], [80, 75, 82]), ([80, 87], [80, 87], [85, 83, 68]), ([80, 65], [80, 65], [80, 65, 66]),
  ([80, 71], [80, 71], [80, 71, 75]), ([80, 89], [80, 89], [80, 89, 71]), ([80, 69], [80, 69], [80, 69, 78]), ([80, 72], [80, 72], [80, 72, 80]), ([80, 78], [80, 78], [78, 90, 68]),
  ([80, 76], [80, 76], [80, 76, 78]), ([80, 84], [80, 84], [69, 85, 82]), ([80, 82], [80, 82], [85, 83, 68]), ([81, 65], [81, 65], [81, 65, 82]), ([75, 82], [75, 82], [75, 82, 87]),
  ([77, 68], [77, 68], [77, 68, 76]), ([82, 79], [82, 79], [82, 79, 78]), ([82, 85], [82, 85], [82, 85, 66]), ([82, 87], [82, 87], [82, 87, 70]), ([82, 69], [82, 69], [69, 85, 82]),
  ([66, 76], [66, 76], [69, 85, 82]), ([83, 72], [83, 72], [83, 72, 80]), ([75, 78], [75, 78], [88, 67, 68]), ([76, 67], [76, 67], [88, 67, 68]), ([77, 70], [77, 70], [69, 85, 82]),
  ([80, 77], [80, 77], [69, 85, 82]), ([86, 67], [86, 67], [88, 67, 68]), ([87, 83], [87, 83], [87, 83, 84]), ([83, 77], [83, 77], [69, 85, 82]), ([83, 84], [83, 84], [83, 84, 78]),
  ([83, 65], [83, 65], [83, 65, 82]), ([83, 78], [83, 78], [88, 79, 70]), ([82, 83], [82, 83], [82, 83, 68]), ([83, 67], [83, 67], [83, 67, 82]), ([83, 76], [83, 76], [83, 76, 76]),
  ([83, 71], [83, 71], [83, 71, 68]), ([83, 88], [83, 88], [65, 78, 71]), ([83, 75], [83, 75], [69, 85, 82]), ([83, 73], [83, 73], [69, 85, 82]), ([83, 66], [83, 66], [83, 66, 68]),
  ([83, 79], [83, 79], [83, 79, 83]), ([90, 65], [90, 65], [90, 65, 82]), ([83, 83], [83, 83], [83, 83, 80]), ([69, 83], [69, 83], [69, 85, 82]), ([76, 75], [76, 75], [76, 75, 82]),
  ([83, 68], [83, 68], [83, 68, 71]), ([83, 82], [83, 82], [83, 82, 68]), ([83, 74], [83, 74], [78, 79, 75]), ([83, 90], [83, 90], [83, 90, 76]), ([83, 69], [83, 69], [83, 69, 75]),
  ([67, 72], [67, 72], [67, 72, 70]), ([83, 89], [83, 89], [83, 89, 80]), ([84, 74], [84, 74], [84, 74, 83]), ([84, 72], [84, 72], [84, 72, 66]), ([77, 75], [77, 75], [77, 75, 68]),
  ([84, 76], [84, 76], [85, 83, 68]), ([84, 71], [84, 71], [88, 79, 70]), ([84, 75], [84, 75], [78, 90, 68]), ([84, 79], [84, 79], [84, 79, 80]), ([84, 84], [84, 84], [84, 84, 68]),
  ([84, 78], [84, 78], [84, 78, 68]), ([84, 82], [84, 82], [84, 82, 89]), ([84, 77], [84, 77], [84, 77, 84]), ([84, 67], [84, 67], [85, 83, 68]), ([84, 86], [84, 86], [65, 85, 68]),
  ([85, 71], [85, 71], [85, 71, 88]), ([85, 65], [85, 65], [85, 65, 72]), ([65, 69], [65, 69], [65, 69, 68]), ([71, 66], [71, 66], [71, 66, 80]), ([84, 90], [84, 90], [84, 90, 83]),
  ([85, 77], [85, 77], [85, 83, 68]), ([86, 73], [86, 73], [85, 83, 68]), ([85, 83], [85, 83], [85, 83, 68]), ([85, 89], [85, 89], [85, 89, 85]), ([85, 90], [85, 90], [85, 90, 83]),
  ([86, 85], [86, 85], [86, 85, 86]), ([86, 69], [86, 69], [86, 69, 70]), ([86, 78], [86, 78], [86, 78, 68]), ([87, 70], [87, 70], [88, 80, 70]), ([69, 72], [69, 72], [77, 65, 68]),
  ([89, 69], [89, 69], [89, 69, 82]), ([90, 77], [90, 77], [90, 77, 87]), ([90, 87], [90, 87], [90, 87, 76]), ([65, 88], [65, 88], [69, 85, 82])]

end Esl.Names
