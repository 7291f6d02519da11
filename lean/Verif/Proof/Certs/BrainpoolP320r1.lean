import Verif.Proof.NamedCurve
/-!
# Certificates for brainpoolP320r1

Generated by tools/gen_certs.py.
-/
namespace Ack.Certs

theorem brainpoolP320r1_0 : Nat.Prime 134594503 := prime_of_trial (f := 20000) (by decide +kernel)
theorem brainpoolP320r1_1 : Nat.Prime 1749679003 := ecpp (a := 0) (b := 817119805) (x := 1660851440) (y := 499975251) brainpoolP320r1_0 (by decide +kernel)
theorem brainpoolP320r1_2 : Nat.Prime 1820420304082981 := ecpp (a := 0) (b := 759703503064522) (x := 964840718534616) (y := 1504779939584852) brainpoolP320r1_1 (by decide +kernel)
theorem brainpoolP320r1_3 : Nat.Prime 1278624356839588938997895479 := ecpp (a := 0) (b := 840344647195402799255910051) (x := 1149998514245330251874766365) (y := 109884939833846723031374789) brainpoolP320r1_2 (by decide +kernel)
theorem brainpoolP320r1_4 : Nat.Prime 794475638985698947131955854183640663 := ecpp (a := 0) (b := 589345092544894551525123960629215549) (x := 416516502030956447810604646641210317) (y := 790206782330792869861014498580390653) brainpoolP320r1_3 (by decide +kernel)
theorem brainpoolP320r1_5 : Nat.Prime 291595315673478980972347335207115737481336777 := ecpp (a := 0) (b := 164685112609641406294111175138509572724622845) (x := 192664910431146147055798261454440217431673191) (y := 241720765011955408829721095507788209400968481) brainpoolP320r1_4 (by decide +kernel)
theorem brainpoolP320r1_6 : Nat.Prime 302458990754210113887453072784532939582724171895049 := ecpp (a := 9968937982898342577292085897657434513905228644565) (b := 284715238976711538090454835730493833939376318951776) (x := 3684789026558443006830425827638737813980389160324) (y := 177811817238969823281804836750873182197096047904041) brainpoolP320r1_5 (by decide +kernel)
theorem brainpoolP320r1_7 : Nat.Prime 4264369310643608395699200873000393820732440538712621603 := ecpp (a := 3880064131536166346245300239804412275841059355498708045) (b := 2264879464857706635308577379802825576797858173292808037) (x := 2730288293883986142470572591338309003614334121976460855) (y := 1215021278365375909307373083089800702077464190216398505) brainpoolP320r1_6 (by decide +kernel)
theorem brainpoolP320r1_8 : Nat.Prime 123666710008664643475276825300786616270987151226521748853 := ecpp (a := 90836948443733882701613778415281803189284432917425016436) (b := 33972758052461708476245386506333915946906880158336802616) (x := 38588834576774141184272625517527036142158236635746086269) (y := 114453793528609263979151842490850000490753949319823096920) brainpoolP320r1_7 (by decide +kernel)
theorem brainpoolP320r1_9 : Nat.Prime 2842355662839148165635762552711732954497715654008805403261381 := ecpp (a := 820364421521388615713094973587870106214661304032503130299460) (b := 0) (x := 1694256649410505166199173028115066796645850511785723801305037) (y := 1875699987978591944297587506773762285592955858993415501929579) brainpoolP320r1_8 (by decide +kernel)
theorem brainpoolP320r1_10 : Nat.Prime 1785234371608962276158782594548842926310938361358202546340023678613932051 := ecpp (a := 85986940807960272625560244969413546404783626122607250723928773585333816) (b := 704145483812105210746017806331316640507146150554591905870134786762430795) (x := 1710249140508751241569742533747784466654635111266653990229121602616017079) (y := 1025961805297423316305441090189263500212009045578711739412099562488279589) brainpoolP320r1_9 (by decide +kernel)
theorem brainpoolP320r1_11 : Nat.Prime 12737647241429945840392913812105994279021959090132601657269860907886048836157 := ecpp (a := 10179621932401732949928773690150013558779502703468391858325377360477258312863) (b := 6043076546809905833992370280127544443066151823264553376498467311385943662317) (x := 4657926481711258942041647398690328564836197878446015500088361638755070223070) (y := 10318200252186252060355792658509191442507250514045347594850306746116204572305) brainpoolP320r1_10 (by decide +kernel)
theorem brainpoolP320r1_12 : Nat.Prime 32107777568008794095960229062846116833303069020459464279243823908023408295206201880127 := ecpp (a := 15895457292803267337305533046477303329439762833763458741372593306023792391825567156816) (b := 2001225060990578552642485840416620565614763166822972003106093686602922407475361968700) (x := 8443512104989361777360170674764239567409943426152462096918502684533219044368080438124) (y := 965942785292583056741668654482133600321312696274488087877631488341950419781177580376) brainpoolP320r1_11 (by decide +kernel)
theorem brainpoolP320r1_13 : Nat.Prime 1027448882176281411070727330011075738665698242939108466819120198945909548221453399080041 := ecpp (a := 238221950929714361410059497015019405500516348521815364704013617269107778583296734742723) (b := 28410772542933491032028536486437496027766572388462453157626875854485882091702485995896) (x := 517997615832057497672441028813303777669804073897513521047743661376659971937285058136187) (y := 874363310292764098099111319943816737822092231479024783634399173351545352616896534205005) brainpoolP320r1_12 (by decide +kernel)
theorem brainpoolP320r1_14 : Nat.Prime 1763593322239166354161909842446019520889512772717686063760686124016784784845843468355685258203921 := ecpp (a := 1415831490025438200549182565386823926143400506208181190589638428740750246758415061310751252597783) (b := 0) (x := 1409488536700391486486080233199697398680907474708572735796740261146606391217812429336873653848219) (y := 368242983512107750253208739421946346045227029089001337030804736913512307697433125302248395898785) brainpoolP320r1_13 (by decide +kernel)

/-- The facts about the constants of brainpoolP320r1 that are checked by computation. -/
theorem brainpoolP320r1 : NumCert Named.brainpoolP320r1Params 1763593322239166354161909842446019520889512772719515192772960415288640868802149818095501499903527 524709318439392693105919717518043758943240164412117372990311331314771510648804065756354311491252 684460840191207052139729091116995410883497412720006364295713596062999867796741135919289734394278 565203972584199378547773331021708157952136817703497461781479793049434111597020229546183313458705 175146432689526447697480803229621572834859050903464782210773312572877763380340633688906597830369 1763593322239166354161909842446019520889512772717686063760686124016784784845843468355685258203921 where
  hp := by decide +kernel
  ha := by decide +kernel
  hb := by decide +kernel
  hgx := by decide +kernel
  hgy := by decide +kernel
  hn := by decide +kernel
  np := brainpoolP320r1_14
  run := by decide +kernel
  root := ⟨1698905138133859904422703592576659888411468285208991445123739633581809689954499335736908823335669, 1515153623756246495274968117718632301573060547001699921971601066746968619846309147336513369256574, 122870849904181773089670971022562028177776873262791750757648614230269868632418475396154339683393, 723011386214059723890258847105443730712169077323097966906237591005955893472217848824699974159717, 591398295572457992264474255279168440779894522159829821427394627523920432340975599627340802408935, by decide +kernel⟩
  num := by decide +kernel

end Ack.Certs
