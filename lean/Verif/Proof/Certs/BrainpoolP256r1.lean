import Verif.Proof.NamedCurve
/-!
# Certificates for brainpoolP256r1

Generated by tools/gen_certs.py.
-/
namespace Ack.Certs

theorem brainpoolP256r1_0 : Nat.Prime 8154961 := prime_of_trial (f := 20000) (by decide +kernel)
theorem brainpoolP256r1_1 : Nat.Prime 3323995620163 := ecpp (a := 0) (b := 1224698291951) (x := 2085892324877) (y := 2157735934881) brainpoolP256r1_0 (by decide +kernel)
theorem brainpoolP256r1_2 : Nat.Prime 66893736545765295937 := ecpp (a := 0) (b := 59493804965439924115) (x := 1661468464781291439) (y := 23798596369531886835) brainpoolP256r1_1 (by decide +kernel)
theorem brainpoolP256r1_3 : Nat.Prime 6558061249735740420115717 := ecpp (a := 0) (b := 2522635363250426821236047) (x := 2759092635983940259193472) (y := 4963004171165154212843630) brainpoolP256r1_2 (by decide +kernel)
theorem brainpoolP256r1_4 : Nat.Prime 70392760448943492705660142516249 := ecpp (a := 0) (b := 37217516831953806913872895195541) (x := 2251899227858108377146099399466) (y := 46585467132613467277432938261734) brainpoolP256r1_3 (by decide +kernel)
theorem brainpoolP256r1_5 : Nat.Prime 112642320133211380056810615646675525118387 := ecpp (a := 71174163379068885520462146834562097862555) (b := 106267025070876983972351536044119022284289) (x := 13901115410899516506893251112386317155153) (y := 82311993517957634034886526293732144098670) brainpoolP256r1_4 (by decide +kernel)
theorem brainpoolP256r1_6 : Nat.Prime 3225050645524668317922773121992977184687661204425083 := ecpp (a := 1674370853831460080641049957641659713565030073859388) (b := 2159381277941816699974312144858467561603673626637345) (x := 816272083974984223852145411309873767900613817276654) (y := 1791843397176873086426459297140766401945436419788725) brainpoolP256r1_5 (by decide +kernel)
theorem brainpoolP256r1_7 : Nat.Prime 41925658391820688132996050236037237337737560125737943 := ecpp (a := 0) (b := 32608893384795877922784511896107248222339634568789241) (x := 25010675249496334352766992619304881463019807804529191) (y := 25049363717222618862134765648691750935363260454670842) brainpoolP256r1_6 (by decide +kernel)
theorem brainpoolP256r1_8 : Nat.Prime 2424911449080121191146017831115047169899198394438195900070787 := ecpp (a := 0) (b := 1373286802642610584124268491824061321817615965204576886749073) (x := 772119084888280068875491305419653333861201931574182037005021) (y := 949204065728319884840372954536096048566840724549125875406081) brainpoolP256r1_7 (by decide +kernel)
theorem brainpoolP256r1_9 : Nat.Prime 1451837460525432789259394350680772118761184749820970647102928449474294893 := ecpp (a := 0) (b := 265266687694063905613349352702716927526755876940481667344051699942673057) (x := 1032055942327127230441844930683320426520032154584515059507492706002768480) (y := 553516212421592243592848425571981159340210565154751294342816583016150963) brainpoolP256r1_8 (by decide +kernel)
theorem brainpoolP256r1_10 : Nat.Prime 76884956397045344220809746629001649092737531784414529538755519063063536359079 := ecpp (a := 0) (b := 69011890645366127228772847328448850790323535489231867823519327549146722562613) (x := 46446383891826531492880360336130104207026876148327393590057686081458334154038) (y := 13865956771554199989698928105203931737235320858108572660334082222568520139022) brainpoolP256r1_9 (by decide +kernel)

/-- The facts about the constants of brainpoolP256r1 that are checked by computation. -/
theorem brainpoolP256r1 : NumCert Named.brainpoolP256r1Params 76884956397045344220809746629001649093037950200943055203735601445031516197751 56698187605326110043627228396178346077120614539475214109386828188763884139993 17577232497321838841075697789794520262950426058923084567046852300633325438902 63243729749562333355292243550312970334778175571054726587095381623627144114786 38218615093753523893122277964030810387585405539772602581557831887485717997975 76884956397045344220809746629001649092737531784414529538755519063063536359079 where
  hp := by decide +kernel
  ha := by decide +kernel
  hb := by decide +kernel
  hgx := by decide +kernel
  hgy := by decide +kernel
  hn := by decide +kernel
  np := brainpoolP256r1_10
  run := by decide +kernel
  root := ⟨30879465705171218781180964745681405181399714776702708610237084133626748968277, 15753133352049499928809741573826840914120852639970811939764947606343843841305, 5347744486777530706669047377084680431416082047222058099865314757079289018413, 36567706687211352878623830248023275230139348886519930341788893933933071887964, 57300115342307814829368171194017451425362166738975514114819334576929185469628, by decide +kernel⟩
  num := by decide +kernel

end Ack.Certs
