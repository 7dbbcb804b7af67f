# Round 8: depth-limited components (Model/Search.lean) and colours (Model/Color.lean)
M=[]
def m(id,file,d,old,new,claim,**k): M.append(dict(id=id,file=file,definition=d,old=old,new=new,claim=claim,**k))
S="Model/Search.lean"; C="Model/Color.lean"
m("M282",S,"costPush","else if allowEqual && decide (c < newCost) then st","else if allowEqual && decide (c ≤ newCost) then st","C59: depth components revisit equal costs")
m("M283",S,"costBody","if limit ≤ c then .ok","if limit < c then .ok","C59: the depth bound is inclusive of exactly maxDepth hops")
m("M284",S,"depthStep","if !st.1.contains n && st.2.1.size != 0 then (∅, ∅, st.2.2 ++ [st.2.1]) else st","if !st.1.contains n && st.2.1.size != 0 then (st.1, ∅, st.2.2 ++ [st.2.1]) else st","C59: costs are reset with each new component")
m("M285",S,"depthStep","(st.1.insert n 0) [n] []","st.1 [n] []","C59: a root starts at cost zero even when reached before")
m("M286",S,"depthStep","if !g.contains n then some (.ok st)","if g.contains n then some (.ok st)","C59: absent roots are skipped")
m("M287",S,"depthComponents","(mergedComponents (if st.2.1.size != 0 then st.2.2 ++ [st.2.1] else st.2.2))","(mergedComponents st.2.2)","C59: the last component is returned")
m("M288",S,"depthComponents","(mergedComponents (if st.2.1.size != 0 then st.2.2 ++ [st.2.1] else st.2.2))","(if st.2.1.size != 0 then st.2.2 ++ [st.2.1] else st.2.2)","C59: overlapping components are merged")
m("M289",C,"blendChannel","((F32.ofNat r.toNat).mul (F32.one.sub w)).add ((F32.ofNat o.toNat).mul w)","((F32.ofNat r.toNat).mul w).add ((F32.ofNat o.toNat).mul (F32.one.sub w))","C60: weight 0 keeps the first colour")
m("M290",C,"blend","let w := weight.clamp01","let w := weight","C60: the weight is clamped")
m("M291",C,"blend","blendChannel x.a y.a w","blendChannel x.a x.a w","C60: alpha is blended")
m("M292",C,"rgbFromChromaHue","else if hp.lt (F32.ofNat 3) then (F32.zero, chroma, x)","else if hp.lt (F32.ofNat 3) then (F32.zero, x, chroma)","C60: third sextant is green-led")
m("M293",C,"rgbFromChromaHue","if hp.lt (F32.ofNat 5) then (x, F32.zero, chroma)","if hp.lt (F32.ofNat 4) then (x, F32.zero, chroma)","C60: sextant boundary at 5")
m("M294",C,"Dbl.tent","near (one - t) 1","near t 1","C60: x = 1 - |h mod 2 - 1|")
m("M295",C,"fromHSV","(value.sub chroma)","chroma","C60: m = value - chroma")
m("M296",C,"fromHLS",".sub F32.one).abs).mul saturation",".sub F32.one)).mul saturation","C60: chroma uses the absolute value")
m("M297",C,"fromHLS","(luminance.sub (chroma.div F32.two))","(luminance.sub chroma)","C60: m = L - C/2")
m("M298",C,"fromParts","return ⟨r, g, b, 255⟩","return ⟨r, g, b, 0⟩","C60: opaque colour")
m("M299",C,"gray","return ⟨c, c, c, 255⟩","return ⟨c, c, c, c⟩","C60: gray is opaque")
m("M300",C,"quality","((value.mul F32.two).mul F32.c255)","(value.mul F32.c255)","C60: quality ramps to 255 at one half")
m("M301",C,"quality","if F32.ofHalf.lt value then","if value.lt F32.ofHalf then","C60: red below one half")
m("M302",C,"spectrum","Res.at? colors[index + 1]?","Res.at? colors[index]?","C60: spectrum blends with the next colour")
m("M303",C,"spectrum","v.sub (F32.ofNat index)","v.sub (F32.ofNat steps)","C60: the weight is the fractional part")
m("M304",C,"spectrum","if steps ≤ index then","if steps < index then","C60: spectrum at 1 does not read past the end")
m("M305",C,"spectrum","let steps := colors.length - 1","let steps := colors.length","C60: value 1 is the last colour")
m("M306",C,"rainbow","fromHLS value.clamp01 F32.ofHalf F32.one","fromHLS value.clamp01 F32.one F32.one","C60: rainbow is a pure hue")
m("M307",C,"ironbowColors","⟨255, 255, 255, 255⟩]","⟨255, 255, 254, 255⟩]","C60: ironbow ends in white")
m("M308",C,"spectrum","| [] => .ok black","| [] => .ok ⟨255, 255, 255, 255⟩","C60: no colours gives black")
m("M309",C,"toUnsigned","if x.isNan || x.isInf then .ub","if x.isInf then .ub","C60: NaN is undefined")
m("M310",C,"clamp","if x.lt lo then lo else if hi.lt x then hi else x","if x.lt lo then lo else x","C60: values over one are clamped")
