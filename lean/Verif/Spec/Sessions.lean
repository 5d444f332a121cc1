import Verif.Model.GeneratorRun
/-! Generators run one after the other. -/
namespace ZkEvm.Spec
open PriceGenerator

/-- The contents the file can have after generators were run one after the other, each stopped at an arbitrary point -/
inductive Sessions (text old : List Byte) : List Byte → Prop
  | none : Sessions text old old
  | run {f w} : Sessions text old f → Reaches text (launch f 1) w → Sessions text old w.file

end ZkEvm.Spec
