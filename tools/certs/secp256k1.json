[
{
"N": "115792089237316195423570985008687907852837564279074904382605163141518161494337",
"a": "78031844057868206437215029170443990531929721691066563945578101813296016080362",
"b": "29370232330926034411022502187321879602845016924879548787411838870939315387124",
"x": "92470356323210168773439610192283147068622999773100318561453078683543664662579",
"y": "13384430722719045942930163784910847703900265677780292125444082738741654467380",
"q": "50773322189041863648442279961058036700471899040180850079637704251"
},
{
"N": "50773322189041863648442279961058036700471899040180850079637704251",
"a": "20576914412524931752167669209348385617802281035642383659154330476",
"b": "19599857415240244963063066864472153328411941012409424723144889729",
"x": "50612857559515462737790591564546593886559641861976848802041796746",
"y": "7962022637739735469400951185825494363471160490184691006969033816",
"q": "2030932887561674545937691198442326251059594451420095732127103913"
},
{
"N": "2030932887561674545937691198442326251059594451420095732127103913",
"a": "1747401597362124311638163238938170502003064878780334562920499388",
"b": "0",
"x": "1056735053872230764934954099864731369002074811738411819142472907",
"y": "3494101667553826034447064812150702964026332630607028334007239",
"q": "25632088340380071004085256309693296239763146655686570365737"
},
{
"N": "25632088340380071004085256309693296239763146655686570365737",
"a": "8334464525244929321751934605266882466906134480047526265118",
"b": "0",
"x": "5750764069423366761278348832405815607525399671910898283166",
"y": "10603356668127172779206728478594029628597485396785939186197",
"q": "696118685143029071210842134953689492361"
},
{
"N": "696118685143029071210842134953689492361",
"a": "564298623094846218122034368929336389400",
"b": "0",
"x": "548217792176598041983558080970861553575",
"y": "560964739609464581058343310195682210405",
"q": "6567157407009708219380475657726753629"
},
{
"N": "6567157407009708219380475657726753629",
"a": "6386056397683370909174617306647205351",
"b": "0",
"x": "3182873093024855446616250478458627017",
"y": "3108232729880718412515768297767693392",
"q": "35055724064362134377436581537"
},
{
"N": "35055724064362134377436581537",
"a": "11831704864227009775194090197",
"b": "0",
"x": "420470264133899138914801637",
"y": "26503293057926768420048785276",
"q": "1804242291243226211941"
},
{
"N": "1804242291243226211941",
"a": "0",
"b": "525211951768549831465",
"x": "1646551317676325722928",
"y": "98221350104752651772",
"q": "28357054050697"
},
{
"N": "28357054050697",
"a": "0",
"b": "13618400169840",
"x": "3991655220605",
"y": "18390291133716",
"q": "4138508581"
},
{
"N": "4138508581",
"a": "0",
"b": "519954348",
"x": "2764613803",
"y": "162655106",
"q": "106118851"
}
]