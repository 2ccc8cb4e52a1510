import Verif.Proofs.FftInt
/-
  Generated. The factors of the transforms of 4096 points in `double`, in pieces of 128.
-/
namespace WD
namespace KInt
set_option maxRecDepth 10000

theorem tab4096_0 : run (-1456496246358769664000) 1898975492072357824036864 1329226431883979658485002088458441311 2039009408589070890822242057724035 6234765683793571668889711719693184347241081 128 73786976294838206464 0 1329227995784915872903807060280344576 0 = some (72369180235439357952, 14395124965956405248, 1303687252565732735913851516381637163, 259319517730532025535172787767079619) := by decide +kernel
theorem tab4096_1 : run (-1456496246358769664000) 1898975492072357824036864 1329226431883979658485002088458441311 2039009408589070890822242057724035 6234765683793571668889711719693184347241081 128 72369180235439357952 14395124965956405248 1303687252565732735913851516381637163 259319517730532025535172787767079619 = some (68170277164696453120, 28237053352350183424, 1228046539346682719437376742195207410, 508673531822740685630297997568867842) := by decide +kernel
theorem tab4096_2 : run (-1456496246358769664000) 1898975492072357824036864 1329226431883979658485002088458441311 2039009408589070890822242057724035 6234765683793571668889711719693184347241081 128 68170277164696453120 28237053352350183424 1228046539346682719437376742195207410 508673531822740685630297997568867842 = some (61351628572846170112, 40993847613935099904, 1105212686316973235412479860799096775, 738479507354404555302404965860897753) := by decide +kernel
theorem tab4096_3 : run (-1456496246358769664000) 1898975492072357824036864 1329226431883979658485002088458441311 2039009408589070890822242057724035 6234765683793571668889711719693184347241081 128 61351628572846170112 40993847613935099904 1105212686316973235412479860799096775 738479507354404555302404965860897753 = some (52175271301331083264, 52175271301331124224, 939906129562517623222788173740722786, 939906129562517623222788173740722384) := by decide +kernel
theorem tab4096_4 : run (-1456496246358769664000) 1898975492072357824036864 1329226431883979658485002088458441311 2039009408589070890822242057724035 6234765683793571668889711719693184347241081 128 52175271301331083264 52175271301331124224 939906129562517623222788173740722786 939906129562517623222788173740722384 = some (40993847613935050752, 61351628572846194688, 738479507354404555302404965860898086, 1105212686316973235412479860799096283) := by decide +kernel
theorem tab4096_5 : run (-1456496246358769664000) 1898975492072357824036864 1329226431883979658485002088458441311 2039009408589070890822242057724035 6234765683793571668889711719693184347241081 128 40993847613935050752 61351628572846194688 738479507354404555302404965860898086 1105212686316973235412479860799096283 = some (28237053352350134272, 68170277164696469504, 508673531822740685630297997568868133, 1228046539346682719437376742195206805) := by decide +kernel
theorem tab4096_6 : run (-1456496246358769664000) 1898975492072357824036864 1329226431883979658485002088458441311 2039009408589070890822242057724035 6234765683793571668889711719693184347241081 128 28237053352350134272 68170277164696469504 508673531822740685630297997568868133 1228046539346682719437376742195206805 = some (14395124965956349952, 72369180235439374336, 259319517730532025535172787767079900, 1303687252565732735913851516381636442) := by decide +kernel
theorem tab4096_7 : run (-1456496246358769664000) 1898975492072357824036864 1329226431883979658485002088458441311 2039009408589070890822242057724035 6234765683793571668889711719693184347241081 128 14395124965956349952 72369180235439374336 259319517730532025535172787767079900 1303687252565732735913851516381636442 = some (-59456, 73786976294838206464, 300, 1329227995784915872903807060280343743) := by decide +kernel
theorem tab4096_8 : run (-1456496246358769664000) 1898975492072357824036864 1329226431883979658485002088458441311 2039009408589070890822242057724035 6234765683793571668889711719693184347241081 128 (-59456) 73786976294838206464 300 1329227995784915872903807060280343743 = some (-14395124965956464640, 72369180235439357952, -259319517730532025535172787767079292, 1303687252565732735913851516381636392) := by decide +kernel
theorem tab4096_9 : run (-1456496246358769664000) 1898975492072357824036864 1329226431883979658485002088458441311 2039009408589070890822242057724035 6234765683793571668889711719693184347241081 128 (-14395124965956464640) 72369180235439357952 (-259319517730532025535172787767079292) 1303687252565732735913851516381636392 = some (-28237053352350240768, 68170277164696453120, -508673531822740685630297997568867496, 1228046539346682719437376742195206707) := by decide +kernel
theorem tab4096_10 : run (-1456496246358769664000) 1898975492072357824036864 1329226431883979658485002088458441311 2039009408589070890822242057724035 6234765683793571668889711719693184347241081 128 (-28237053352350240768) 68170277164696453120 (-508673531822740685630297997568867496) 1228046539346682719437376742195206707 = some (-40993847613935149056, 61351628572846161920, -738479507354404555302404965860897404, 1105212686316973235412479860799096140) := by decide +kernel
theorem tab4096_11 : run (-1456496246358769664000) 1898975492072357824036864 1329226431883979658485002088458441311 2039009408589070890822242057724035 6234765683793571668889711719693184347241081 128 (-40993847613935149056) 61351628572846161920 (-738479507354404555302404965860897404) 1105212686316973235412479860799096140 = some (-52175271301331165184, 52175271301331050496, -939906129562517623222788173740722047, 939906129562517623222788173740722216) := by decide +kernel
theorem tab4096_12 : run (-1456496246358769664000) 1898975492072357824036864 1329226431883979658485002088458441311 2039009408589070890822242057724035 6234765683793571668889711719693184347241081 128 (-52175271301331165184) 52175271301331050496 (-939906129562517623222788173740722047) 939906129562517623222788173740722216 = some (-61351628572846235648, 40993847613935009792, -1105212686316973235412479860799095970, 738479507354404555302404965860897582) := by decide +kernel
theorem tab4096_13 : run (-1456496246358769664000) 1898975492072357824036864 1329226431883979658485002088458441311 2039009408589070890822242057724035 6234765683793571668889711719693184347241081 128 (-61351628572846235648) 40993847613935009792 (-1105212686316973235412479860799095970) 738479507354404555302404965860897582 = some (-68170277164696502272, 28237053352350072832, -1228046539346682719437376742195206534, 508673531822740685630297997568867688) := by decide +kernel
theorem tab4096_14 : run (-1456496246358769664000) 1898975492072357824036864 1329226431883979658485002088458441311 2039009408589070890822242057724035 6234765683793571668889711719693184347241081 128 (-68170277164696502272) 28237053352350072832 (-1228046539346682719437376742195206534) 508673531822740685630297997568867688 = some (-72369180235439390720, 14395124965956284416, -1303687252565732735913851516381636219, 259319517730532025535172787767079504) := by decide +kernel
theorem tab4096_15 : run (-1456496246358769664000) 1898975492072357824036864 1329226431883979658485002088458441311 2039009408589070890822242057724035 6234765683793571668889711719693184347241081 128 (-72369180235439390720) 14395124965956284416 (-1303687252565732735913851516381636219) 259319517730532025535172787767079504 = some (-73786976294838198272, -124224, -1329227995784915872903807060280343570, -64) := by decide +kernel
theorem cum4096_1 : run (-1456496246358769664000) 1898975492072357824036864 1329226431883979658485002088458441311 2039009408589070890822242057724035 6234765683793571668889711719693184347241081 256 73786976294838206464 0 1329227995784915872903807060280344576 0 = some (68170277164696453120, 28237053352350183424, 1228046539346682719437376742195207410, 508673531822740685630297997568867842) := run_add (M := 128) (N := 128) (by norm_num) tab4096_0 tab4096_1
theorem cum4096_2 : run (-1456496246358769664000) 1898975492072357824036864 1329226431883979658485002088458441311 2039009408589070890822242057724035 6234765683793571668889711719693184347241081 384 73786976294838206464 0 1329227995784915872903807060280344576 0 = some (61351628572846170112, 40993847613935099904, 1105212686316973235412479860799096775, 738479507354404555302404965860897753) := run_add (M := 256) (N := 128) (by norm_num) cum4096_1 tab4096_2
theorem cum4096_3 : run (-1456496246358769664000) 1898975492072357824036864 1329226431883979658485002088458441311 2039009408589070890822242057724035 6234765683793571668889711719693184347241081 512 73786976294838206464 0 1329227995784915872903807060280344576 0 = some (52175271301331083264, 52175271301331124224, 939906129562517623222788173740722786, 939906129562517623222788173740722384) := run_add (M := 384) (N := 128) (by norm_num) cum4096_2 tab4096_3
theorem cum4096_4 : run (-1456496246358769664000) 1898975492072357824036864 1329226431883979658485002088458441311 2039009408589070890822242057724035 6234765683793571668889711719693184347241081 640 73786976294838206464 0 1329227995784915872903807060280344576 0 = some (40993847613935050752, 61351628572846194688, 738479507354404555302404965860898086, 1105212686316973235412479860799096283) := run_add (M := 512) (N := 128) (by norm_num) cum4096_3 tab4096_4
theorem cum4096_5 : run (-1456496246358769664000) 1898975492072357824036864 1329226431883979658485002088458441311 2039009408589070890822242057724035 6234765683793571668889711719693184347241081 768 73786976294838206464 0 1329227995784915872903807060280344576 0 = some (28237053352350134272, 68170277164696469504, 508673531822740685630297997568868133, 1228046539346682719437376742195206805) := run_add (M := 640) (N := 128) (by norm_num) cum4096_4 tab4096_5
theorem cum4096_6 : run (-1456496246358769664000) 1898975492072357824036864 1329226431883979658485002088458441311 2039009408589070890822242057724035 6234765683793571668889711719693184347241081 896 73786976294838206464 0 1329227995784915872903807060280344576 0 = some (14395124965956349952, 72369180235439374336, 259319517730532025535172787767079900, 1303687252565732735913851516381636442) := run_add (M := 768) (N := 128) (by norm_num) cum4096_5 tab4096_6
theorem cum4096_7 : run (-1456496246358769664000) 1898975492072357824036864 1329226431883979658485002088458441311 2039009408589070890822242057724035 6234765683793571668889711719693184347241081 1024 73786976294838206464 0 1329227995784915872903807060280344576 0 = some (-59456, 73786976294838206464, 300, 1329227995784915872903807060280343743) := run_add (M := 896) (N := 128) (by norm_num) cum4096_6 tab4096_7
theorem cum4096_8 : run (-1456496246358769664000) 1898975492072357824036864 1329226431883979658485002088458441311 2039009408589070890822242057724035 6234765683793571668889711719693184347241081 1152 73786976294838206464 0 1329227995784915872903807060280344576 0 = some (-14395124965956464640, 72369180235439357952, -259319517730532025535172787767079292, 1303687252565732735913851516381636392) := run_add (M := 1024) (N := 128) (by norm_num) cum4096_7 tab4096_8
theorem cum4096_9 : run (-1456496246358769664000) 1898975492072357824036864 1329226431883979658485002088458441311 2039009408589070890822242057724035 6234765683793571668889711719693184347241081 1280 73786976294838206464 0 1329227995784915872903807060280344576 0 = some (-28237053352350240768, 68170277164696453120, -508673531822740685630297997568867496, 1228046539346682719437376742195206707) := run_add (M := 1152) (N := 128) (by norm_num) cum4096_8 tab4096_9
theorem cum4096_10 : run (-1456496246358769664000) 1898975492072357824036864 1329226431883979658485002088458441311 2039009408589070890822242057724035 6234765683793571668889711719693184347241081 1408 73786976294838206464 0 1329227995784915872903807060280344576 0 = some (-40993847613935149056, 61351628572846161920, -738479507354404555302404965860897404, 1105212686316973235412479860799096140) := run_add (M := 1280) (N := 128) (by norm_num) cum4096_9 tab4096_10
theorem cum4096_11 : run (-1456496246358769664000) 1898975492072357824036864 1329226431883979658485002088458441311 2039009408589070890822242057724035 6234765683793571668889711719693184347241081 1536 73786976294838206464 0 1329227995784915872903807060280344576 0 = some (-52175271301331165184, 52175271301331050496, -939906129562517623222788173740722047, 939906129562517623222788173740722216) := run_add (M := 1408) (N := 128) (by norm_num) cum4096_10 tab4096_11
theorem cum4096_12 : run (-1456496246358769664000) 1898975492072357824036864 1329226431883979658485002088458441311 2039009408589070890822242057724035 6234765683793571668889711719693184347241081 1664 73786976294838206464 0 1329227995784915872903807060280344576 0 = some (-61351628572846235648, 40993847613935009792, -1105212686316973235412479860799095970, 738479507354404555302404965860897582) := run_add (M := 1536) (N := 128) (by norm_num) cum4096_11 tab4096_12
theorem cum4096_13 : run (-1456496246358769664000) 1898975492072357824036864 1329226431883979658485002088458441311 2039009408589070890822242057724035 6234765683793571668889711719693184347241081 1792 73786976294838206464 0 1329227995784915872903807060280344576 0 = some (-68170277164696502272, 28237053352350072832, -1228046539346682719437376742195206534, 508673531822740685630297997568867688) := run_add (M := 1664) (N := 128) (by norm_num) cum4096_12 tab4096_13
theorem cum4096_14 : run (-1456496246358769664000) 1898975492072357824036864 1329226431883979658485002088458441311 2039009408589070890822242057724035 6234765683793571668889711719693184347241081 1920 73786976294838206464 0 1329227995784915872903807060280344576 0 = some (-72369180235439390720, 14395124965956284416, -1303687252565732735913851516381636219, 259319517730532025535172787767079504) := run_add (M := 1792) (N := 128) (by norm_num) cum4096_13 tab4096_14
theorem tab4096 : run (-1456496246358769664000) 1898975492072357824036864 1329226431883979658485002088458441311 2039009408589070890822242057724035 6234765683793571668889711719693184347241081 2048 73786976294838206464 0 1329227995784915872903807060280344576 0 = some (-73786976294838198272, -124224, -1329227995784915872903807060280343570, -64) := run_add (M := 1920) (N := 128) (by norm_num) cum4096_14 tab4096_15

end KInt
end WD
