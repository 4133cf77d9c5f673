import Verif.Base.Par

/-! # Data races in the loops of a routine -/

namespace L1c

/-- some interleaving of some loop of the routine makes two of its threads race -/
inductive KRace {F : Type} : Kernel F → Mem F → Prop
  | here {p : Phase F} {k : Kernel F} {m : Mem F} (c : Config F) (s : Steps (threads p.N p.body, m) c) (r : Race c.1) : KRace (p :: k) m
  | there {p : Phase F} {k : Kernel F} {m m₁ : Mem F} (c : Config F) (s : Steps (threads p.N p.body, m) c) (d : IsDone c) (e : c.2 = m₁) (r : KRace k m₁) : KRace (p :: k) m

end L1c
