import Verif.Dtmf.LiveRowsA

/-!
# The table of sums behind C151: the tones of 1209 and 1336 Hz

The import keeps the three parts of the table from being checked at the same time, which would take more memory.
-/

set_option maxRecDepth 100000

namespace Verif.Dtmf.Live

theorem rowsB_ok : ((rows.drop 4).take 2).all rowCheck = true := by decide +kernel

end Verif.Dtmf.Live
