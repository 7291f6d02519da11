import Verif.Proof.NamedCurve
/-!
# Certificates for secp256k1

Generated by tools/gen_certs.py.
-/
namespace Ack.Certs

theorem secp256k1_0 : Nat.Prime 106118851 := prime_of_trial (f := 20000) (by decide +kernel)
theorem secp256k1_1 : Nat.Prime 4138508581 := ecpp (a := 0) (b := 519954348) (x := 2764613803) (y := 162655106) secp256k1_0 (by decide +kernel)
theorem secp256k1_2 : Nat.Prime 28357054050697 := ecpp (a := 0) (b := 13618400169840) (x := 3991655220605) (y := 18390291133716) secp256k1_1 (by decide +kernel)
theorem secp256k1_3 : Nat.Prime 1804242291243226211941 := ecpp (a := 0) (b := 525211951768549831465) (x := 1646551317676325722928) (y := 98221350104752651772) secp256k1_2 (by decide +kernel)
theorem secp256k1_4 : Nat.Prime 35055724064362134377436581537 := ecpp (a := 11831704864227009775194090197) (b := 0) (x := 420470264133899138914801637) (y := 26503293057926768420048785276) secp256k1_3 (by decide +kernel)
theorem secp256k1_5 : Nat.Prime 6567157407009708219380475657726753629 := ecpp (a := 6386056397683370909174617306647205351) (b := 0) (x := 3182873093024855446616250478458627017) (y := 3108232729880718412515768297767693392) secp256k1_4 (by decide +kernel)
theorem secp256k1_6 : Nat.Prime 696118685143029071210842134953689492361 := ecpp (a := 564298623094846218122034368929336389400) (b := 0) (x := 548217792176598041983558080970861553575) (y := 560964739609464581058343310195682210405) secp256k1_5 (by decide +kernel)
theorem secp256k1_7 : Nat.Prime 25632088340380071004085256309693296239763146655686570365737 := ecpp (a := 8334464525244929321751934605266882466906134480047526265118) (b := 0) (x := 5750764069423366761278348832405815607525399671910898283166) (y := 10603356668127172779206728478594029628597485396785939186197) secp256k1_6 (by decide +kernel)
theorem secp256k1_8 : Nat.Prime 2030932887561674545937691198442326251059594451420095732127103913 := ecpp (a := 1747401597362124311638163238938170502003064878780334562920499388) (b := 0) (x := 1056735053872230764934954099864731369002074811738411819142472907) (y := 3494101667553826034447064812150702964026332630607028334007239) secp256k1_7 (by decide +kernel)
theorem secp256k1_9 : Nat.Prime 50773322189041863648442279961058036700471899040180850079637704251 := ecpp (a := 20576914412524931752167669209348385617802281035642383659154330476) (b := 19599857415240244963063066864472153328411941012409424723144889729) (x := 50612857559515462737790591564546593886559641861976848802041796746) (y := 7962022637739735469400951185825494363471160490184691006969033816) secp256k1_8 (by decide +kernel)
theorem secp256k1_10 : Nat.Prime 115792089237316195423570985008687907852837564279074904382605163141518161494337 := ecpp (a := 78031844057868206437215029170443990531929721691066563945578101813296016080362) (b := 29370232330926034411022502187321879602845016924879548787411838870939315387124) (x := 92470356323210168773439610192283147068622999773100318561453078683543664662579) (y := 13384430722719045942930163784910847703900265677780292125444082738741654467380) secp256k1_9 (by decide +kernel)

/-- The facts about the constants of secp256k1 that are checked by computation. -/
theorem secp256k1 : NumCert Named.secp256k1Params 115792089237316195423570985008687907853269984665640564039457584007908834671663 0 7 55066263022277343669578718895168534326250603453777594175500187360389116729240 32670510020758816978083085130507043184471273380659243275938904335757337482424 115792089237316195423570985008687907852837564279074904382605163141518161494337 where
  hp := by decide +kernel
  ha := by decide +kernel
  hb := by decide +kernel
  hgx := by decide +kernel
  hgy := by decide +kernel
  hn := by decide +kernel
  np := secp256k1_10
  run := by decide +kernel
  root := ⟨99250362203413881791632272864589635302802843999120483462392214863921858289997, 0, 0, 0, 46758632835564736012269203954919337884311706168562511263687580192619680188360, by decide +kernel⟩
  num := by decide +kernel

end Ack.Certs
