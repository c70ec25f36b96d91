import Verif.WmStop.Inv
/-!
# Stop callbacks under the C++ memory model — equations for grind (C94)
-/
namespace Verif.WmStop

@[grind =] theorem eq1 : holdsO PC.idle = false := rfl
@[grind =] theorem eq2 : holdsO PC.reg = false := rfl
@[grind =] theorem eq3 : holdsO PC.crit = true := rfl
@[grind =] theorem eq4 : holdsO PC.unl0 = true := rfl
@[grind =] theorem eq5 : holdsO PC.regd = false := rfl
@[grind =] theorem eq6 (o : Nat) : holdsO (PC.critR o) = true := rfl
@[grind =] theorem eq7 (o : Nat) : holdsO (PC.unlF o) = true := rfl
@[grind =] theorem eq8 (o : Nat) : holdsO (PC.unlW o) = true := rfl
@[grind =] theorem eq9 : holdsO PC.wait = false := rfl
@[grind =] theorem eq10 : holdsO PC.inl = false := rfl
@[grind =] theorem eq11 : holdsO PC.inl2 = false := rfl
@[grind =] theorem eq12 : holdsO PC.fr = false := rfl
@[grind =] theorem eq13 : holdsO PC.saw = false := rfl
@[grind =] theorem eq14 : holdsO PC.fin = false := rfl
@[grind =] theorem eq15 : listed PC.idle = false := rfl
@[grind =] theorem eq16 : listed PC.reg = false := rfl
@[grind =] theorem eq17 : listed PC.crit = false := rfl
@[grind =] theorem eq18 : listed PC.unl0 = true := rfl
@[grind =] theorem eq19 : listed PC.regd = true := rfl
@[grind =] theorem eq20 (o : Nat) : listed (PC.critR o) = true := rfl
@[grind =] theorem eq21 (o : Nat) : listed (PC.unlF o) = false := rfl
@[grind =] theorem eq22 (o : Nat) : listed (PC.unlW o) = false := rfl
@[grind =] theorem eq23 : listed PC.wait = false := rfl
@[grind =] theorem eq24 : listed PC.inl = false := rfl
@[grind =] theorem eq25 : listed PC.inl2 = false := rfl
@[grind =] theorem eq26 : listed PC.fr = false := rfl
@[grind =] theorem eq27 : listed PC.saw = false := rfl
@[grind =] theorem eq28 : listed PC.fin = false := rfl
@[grind =] theorem eq29 : open' PC.idle = false := rfl
@[grind =] theorem eq30 : open' PC.reg = false := rfl
@[grind =] theorem eq31 : open' PC.crit = false := rfl
@[grind =] theorem eq32 : open' PC.unl0 = false := rfl
@[grind =] theorem eq33 : open' PC.regd = true := rfl
@[grind =] theorem eq34 (o : Nat) : open' (PC.critR o) = true := rfl
@[grind =] theorem eq35 (o : Nat) : open' (PC.unlF o) = false := rfl
@[grind =] theorem eq36 (o : Nat) : open' (PC.unlW o) = true := rfl
@[grind =] theorem eq37 : open' PC.wait = true := rfl
@[grind =] theorem eq38 : open' PC.inl = false := rfl
@[grind =] theorem eq39 : open' PC.inl2 = false := rfl
@[grind =] theorem eq40 : open' PC.fr = false := rfl
@[grind =] theorem eq41 : open' PC.saw = false := rfl
@[grind =] theorem eq42 : open' PC.fin = false := rfl
@[grind =] theorem eq43 : fresh PC.idle = true := rfl
@[grind =] theorem eq44 : fresh PC.reg = true := rfl
@[grind =] theorem eq45 : fresh PC.crit = true := rfl
@[grind =] theorem eq46 : fresh PC.unl0 = false := rfl
@[grind =] theorem eq47 : fresh PC.regd = false := rfl
@[grind =] theorem eq48 (o : Nat) : fresh (PC.critR o) = false := rfl
@[grind =] theorem eq49 (o : Nat) : fresh (PC.unlF o) = false := rfl
@[grind =] theorem eq50 (o : Nat) : fresh (PC.unlW o) = false := rfl
@[grind =] theorem eq51 : fresh PC.wait = false := rfl
@[grind =] theorem eq52 : fresh PC.inl = true := rfl
@[grind =] theorem eq53 : fresh PC.inl2 = true := rfl
@[grind =] theorem eq54 : fresh PC.fr = false := rfl
@[grind =] theorem eq55 : fresh PC.saw = true := rfl
@[grind =] theorem eq56 : fresh PC.fin = false := rfl
@[grind =] theorem eq57 : knows PC.idle = false := rfl
@[grind =] theorem eq58 : knows PC.reg = false := rfl
@[grind =] theorem eq59 : knows PC.crit = false := rfl
@[grind =] theorem eq60 : knows PC.unl0 = false := rfl
@[grind =] theorem eq61 : knows PC.regd = false := rfl
@[grind =] theorem eq62 (o : Nat) : knows (PC.critR o) = false := rfl
@[grind =] theorem eq63 (o : Nat) : knows (PC.unlF o) = true := rfl
@[grind =] theorem eq64 (o : Nat) : knows (PC.unlW o) = false := rfl
@[grind =] theorem eq65 : knows PC.wait = false := rfl
@[grind =] theorem eq66 : knows PC.inl = false := rfl
@[grind =] theorem eq67 : knows PC.inl2 = false := rfl
@[grind =] theorem eq68 : knows PC.fr = true := rfl
@[grind =] theorem eq69 : knows PC.saw = false := rfl
@[grind =] theorem eq70 : knows PC.fin = true := rfl
@[grind =] theorem eq71 : pers PC.idle = false := rfl
@[grind =] theorem eq72 : pers PC.reg = false := rfl
@[grind =] theorem eq73 : pers PC.crit = false := rfl
@[grind =] theorem eq74 : pers PC.unl0 = false := rfl
@[grind =] theorem eq75 : pers PC.regd = false := rfl
@[grind =] theorem eq76 (o : Nat) : pers (PC.critR o) = true := rfl
@[grind =] theorem eq77 (o : Nat) : pers (PC.unlF o) = true := rfl
@[grind =] theorem eq78 (o : Nat) : pers (PC.unlW o) = true := rfl
@[grind =] theorem eq79 : pers PC.wait = true := rfl
@[grind =] theorem eq80 : pers PC.inl = false := rfl
@[grind =] theorem eq81 : pers PC.inl2 = false := rfl
@[grind =] theorem eq82 : pers PC.fr = false := rfl
@[grind =] theorem eq83 : pers PC.saw = false := rfl
@[grind =] theorem eq84 : pers PC.fin = false := rfl
@[grind =] theorem eq85 : old PC.idle = 0 := rfl
@[grind =] theorem eq86 : old PC.reg = 0 := rfl
@[grind =] theorem eq87 : old PC.crit = 0 := rfl
@[grind =] theorem eq88 : old PC.unl0 = 0 := rfl
@[grind =] theorem eq89 : old PC.regd = 0 := rfl
@[grind =] theorem eq90 (o : Nat) : old (PC.critR o) = o := rfl
@[grind =] theorem eq91 (o : Nat) : old (PC.unlF o) = o := rfl
@[grind =] theorem eq92 (o : Nat) : old (PC.unlW o) = o := rfl
@[grind =] theorem eq93 : old PC.wait = 0 := rfl
@[grind =] theorem eq94 : old PC.inl = 0 := rfl
@[grind =] theorem eq95 : old PC.inl2 = 0 := rfl
@[grind =] theorem eq96 : old PC.fr = 0 := rfl
@[grind =] theorem eq97 : old PC.saw = 0 := rfl
@[grind =] theorem eq98 : old PC.fin = 0 := rfl
@[grind =] theorem eq99 : holdsR RPC.idle = false := rfl
@[grind =] theorem eq100 : holdsR RPC.req = false := rfl
@[grind =] theorem eq101 : holdsR RPC.note = true := rfl
@[grind =] theorem eq102 : holdsR RPC.loop = true := rfl
@[grind =] theorem eq103 (j : Nat) : holdsR (RPC.rel j) = true := rfl
@[grind =] theorem eq104 (j : Nat) : holdsR (RPC.call j) = false := rfl
@[grind =] theorem eq105 (j : Nat) : holdsR (RPC.dn j) = false := rfl
@[grind =] theorem eq106 (j : Nat) : holdsR (RPC.sl j) = false := rfl
@[grind =] theorem eq107 (j : Nat) : holdsR (RPC.sc j) = true := rfl
@[grind =] theorem eq108 (j : Nat) : holdsR (RPC.su j) = true := rfl
@[grind =] theorem eq109 (j : Nat) : holdsR (RPC.sf j) = false := rfl
@[grind =] theorem eq110 : holdsR RPC.relock = false := rfl
@[grind =] theorem eq111 : holdsR RPC.relF = true := rfl
@[grind =] theorem eq112 : holdsR RPC.fin = false := rfl
@[grind =] theorem eq113 : before RPC.idle = false := rfl
@[grind =] theorem eq114 : before RPC.req = false := rfl
@[grind =] theorem eq115 : before RPC.note = false := rfl
@[grind =] theorem eq116 : before RPC.loop = false := rfl
@[grind =] theorem eq117 (j : Nat) : before (RPC.rel j) = true := rfl
@[grind =] theorem eq118 (j : Nat) : before (RPC.call j) = true := rfl
@[grind =] theorem eq119 (j : Nat) : before (RPC.dn j) = false := rfl
@[grind =] theorem eq120 (j : Nat) : before (RPC.sl j) = false := rfl
@[grind =] theorem eq121 (j : Nat) : before (RPC.sc j) = false := rfl
@[grind =] theorem eq122 (j : Nat) : before (RPC.su j) = false := rfl
@[grind =] theorem eq123 (j : Nat) : before (RPC.sf j) = false := rfl
@[grind =] theorem eq124 : before RPC.relock = false := rfl
@[grind =] theorem eq125 : before RPC.relF = false := rfl
@[grind =] theorem eq126 : before RPC.fin = false := rfl
@[grind =] theorem eq127 (i : Nat) : hand i RPC.idle = false := rfl
@[grind =] theorem eq128 (i : Nat) : hand i RPC.req = false := rfl
@[grind =] theorem eq129 (i : Nat) : hand i RPC.note = false := rfl
@[grind =] theorem eq130 (i : Nat) : hand i RPC.loop = false := rfl
@[grind =] theorem eq131 (i j : Nat) : hand i (RPC.rel j) = (j == i) := rfl
@[grind =] theorem eq132 (i j : Nat) : hand i (RPC.call j) = (j == i) := rfl
@[grind =] theorem eq133 (i j : Nat) : hand i (RPC.dn j) = (j == i) := rfl
@[grind =] theorem eq134 (i j : Nat) : hand i (RPC.sl j) = (j == i) := rfl
@[grind =] theorem eq135 (i j : Nat) : hand i (RPC.sc j) = (j == i) := rfl
@[grind =] theorem eq136 (i j : Nat) : hand i (RPC.su j) = (j == i) := rfl
@[grind =] theorem eq137 (i j : Nat) : hand i (RPC.sf j) = (j == i) := rfl
@[grind =] theorem eq138 (i : Nat) : hand i RPC.relock = false := rfl
@[grind =] theorem eq139 (i : Nat) : hand i RPC.relF = false := rfl
@[grind =] theorem eq140 (i : Nat) : hand i RPC.fin = false := rfl
@[grind =] theorem eq141 (i : Nat) : selfR i RPC.idle = false := rfl
@[grind =] theorem eq142 (i : Nat) : selfR i RPC.req = false := rfl
@[grind =] theorem eq143 (i : Nat) : selfR i RPC.note = false := rfl
@[grind =] theorem eq144 (i : Nat) : selfR i RPC.loop = false := rfl
@[grind =] theorem eq145 (i j : Nat) : selfR i (RPC.rel j) = false := rfl
@[grind =] theorem eq146 (i j : Nat) : selfR i (RPC.call j) = false := rfl
@[grind =] theorem eq147 (i j : Nat) : selfR i (RPC.dn j) = false := rfl
@[grind =] theorem eq148 (i j : Nat) : selfR i (RPC.sl j) = (j == i) := rfl
@[grind =] theorem eq149 (i j : Nat) : selfR i (RPC.sc j) = (j == i) := rfl
@[grind =] theorem eq150 (i j : Nat) : selfR i (RPC.su j) = (j == i) := rfl
@[grind =] theorem eq151 (i j : Nat) : selfR i (RPC.sf j) = (j == i) := rfl
@[grind =] theorem eq152 (i : Nat) : selfR i RPC.relock = false := rfl
@[grind =] theorem eq153 (i : Nat) : selfR i RPC.relF = false := rfl
@[grind =] theorem eq154 (i : Nat) : selfR i RPC.fin = false := rfl
@[grind =] theorem eq155 (j : Nat) : What.isCrit (What.make j) = false := rfl
@[grind =] theorem eq156 (l : List Nat) : What.isCrit (What.crit l) = true := rfl
@[grind =] theorem eq157 (j : Nat) : What.isCrit (What.run j) = false := rfl
@[grind =] theorem eq158 (j : Nat) : What.isCrit (What.flag j) = false := rfl
@[grind =] theorem eq159 (j : Nat) : What.isCrit (What.free j) = false := rfl
@[grind =] theorem eq160 : What.isCrit What.uw = false := rfl
@[grind =] theorem eq161 : What.isCrit What.ur = false := rfl
@[grind =] theorem eq162 : What.isCrit What.atom = false := rfl
@[grind =] theorem on_make (i j : Nat) : (What.make j).on i = (j == i) := rfl
@[grind =] theorem on_run (i j : Nat) : (What.run j).on i = (j == i) := rfl
@[grind =] theorem on_flag (i j : Nat) : (What.flag j).on i = (j == i) := rfl
@[grind =] theorem on_free (i j : Nat) : (What.free j).on i = (j == i) := rfl
@[grind =] theorem on_uw (i : Nat) : (What.uw).on i = false := rfl
@[grind =] theorem on_ur (i : Nat) : (What.ur).on i = false := rfl
@[grind =] theorem on_atom (i : Nat) : (What.atom).on i = false := rfl
@[grind =] theorem on_crit (i : Nat) (l : List Nat) : (What.crit l).on i = decide (i ∈ l) := by simp [What.on]

end Verif.WmStop
