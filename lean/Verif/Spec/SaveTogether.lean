import Verif.Model.SaveTogether
/-!
# When a process is done, under way, or has not touched the file
-/

namespace Verif.Spec

/-- All of the text is written, to the file or to one that has been removed since. -/
def AllWritten {ι : Type} (c : ι → ListText) (w : Savers ι) (i : ι) : Prop := 
  w.pc i = .writing (c i).text.length ∨ w.pc i = .lost (c i).text.length

instance {ι : Type} (c : ι → ListText) (w : Savers ι) (i : ι) : Decidable (AllWritten c w i) :=
  inferInstanceAs (Decidable (_ ∨ _))

/-- The file has been opened. -/
def Underway {ι : Type} (w : Savers ι) (i : ι) : Prop := ∃ k, w.pc i = .writing k ∨ w.pc i = .lost k

end Verif.Spec
