/-!
# Data of nisaba/scripts/natural_translit/brahmic/en_spellout.py

Written by tools/mkspell.py from the literal table of the source, as lists of code points.
-/
namespace Nisaba.NT.Spellout

/-- en_spellout.py:105-522 `spellouts`: a letter and its spellings in the order of the parameters of
`_EnLetterSpellOut.__init__` (lines 66-82). -/
def table : List (Nat × List (List Nat)) := [
  (97, [
    [2447],
    [2703],
    [2319],
    [3214],
    [3342],
    [2319],
    [2831],
    [2575],
    [1575, 1610],
    [3474],
    [2959],
    [3086],
    [1575, 1746]
  ]),
  (98, [
    [2476, 2495],
    [2732, 2752],
    [2348, 2368],
    [3244, 3263],
    [3372, 3391],
    [2348, 2368],
    [2860, 2879],
    [2604, 2624],
    [1576, 1610],
    [3510, 3539],
    [2986, 3007],
    [3116, 3135],
    [1576, 1740]
  ]),
  (99, [
    [2488, 2495],
    [2744, 2752],
    [2360, 2368],
    [3256, 3263],
    [3384, 3391],
    [2360, 2368],
    [2872, 2879],
    [2616, 2624],
    [1587, 1610],
    [3523, 3539],
    [2970, 3007],
    [3128, 3135],
    [1587, 1740]
  ]),
  (100, [
    [2465, 2495],
    [2721, 2752],
    [2337, 2368],
    [3233, 3263],
    [3361, 3391],
    [2337, 2368],
    [2849, 2879],
    [2593, 2624],
    [1674, 1610],
    [3497, 3539],
    [2975, 3007],
    [3105, 3135],
    [1672, 1740]
  ]),
  (101, [
    [2439],
    [2696],
    [2312],
    [3207],
    [3335],
    [2312],
    [2823],
    [2568],
    [1575, 1610],
    [3466],
    [2951],
    [3079],
    [1575, 1740]
  ]),
  (102, [
    [2447, 2475],
    [2703, 2731],
    [2319, 2347, 2364],
    [3214, 3243, 3277, 8204],
    [3342, 3371, 3405, 8204],
    [2319, 2347],
    [2831, 2859],
    [2576, 2673, 2603, 2620],
    [1575, 1610, 1601],
    [3473, 3526, 3530],
    [2958, 2947, 2986, 3021],
    [3086, 3115, 3149, 8204],
    [1575, 1740, 1601]
  ]),
  (103, [
    [2460, 2495],
    [2716, 2752],
    [2332, 2368],
    [3228, 3263],
    [3356, 3391],
    [2332, 2368],
    [2844, 2879],
    [2588, 2624],
    [1580, 1610],
    [3490, 3539],
    [2972, 3007],
    [3100, 3135],
    [1580, 1740]
  ]),
  (104, [
    [2447, 2439, 2458],
    [2703, 2714],
    [2319, 2330],
    [3214, 3226, 3277, 8204],
    [3342, 3354, 3405, 3354, 3405, 8204],
    [2319, 2330],
    [2831, 2823, 2842],
    [2576, 2673, 2586],
    [1575, 1610, 1671],
    [3473, 3488, 3530],
    [3001, 3014, 2970, 3021],
    [3129, 3142, 3098, 3149, 8204],
    [1575, 1740, 1670]
  ]),
  (105, [
    [2438, 2439],
    [2694, 2695],
    [2310, 2312],
    [3216],
    [3344],
    [2310, 2351],
    [2822, 2823],
    [2566, 2568],
    [1570, 1569, 1616],
    [3461, 3514, 3538],
    [2960],
    [3088],
    [1570, 1574, 1740]
  ]),
  (106, [
    [2460, 2503],
    [2716, 2759],
    [2332, 2375],
    [3228, 3270],
    [3356, 3398],
    [2332, 2375],
    [2844, 2887],
    [2588, 2631],
    [1580, 1610],
    [3490, 3546],
    [2972, 3015],
    [3100, 3142],
    [1580, 1746]
  ]),
  (107, [
    [2453, 2503],
    [2709, 2759],
    [2325, 2375],
    [3221, 3270],
    [3349, 3398],
    [2325, 2375],
    [2837, 2887],
    [2581, 2631],
    [1706, 1610],
    [3482, 3546],
    [2965, 3015],
    [3093, 3142],
    [1705, 1746]
  ]),
  (108, [
    [2447, 2482],
    [2703, 2738],
    [2319, 2354],
    [3214, 3250, 3277, 8204],
    [3342, 3453],
    [2319, 2354],
    [2831, 2866],
    [2576, 2673, 2610],
    [1575, 1610, 1604],
    [3473, 3517, 3530],
    [2958, 2994, 3021],
    [3086, 3122, 3149, 8204],
    [1575, 1740, 1604]
  ]),
  (109, [
    [2447, 2478],
    [2703, 2734],
    [2319, 2350],
    [3214, 3202],
    [3342, 3330],
    [2319, 2350],
    [2831, 2862],
    [2576, 2673, 2606],
    [1575, 1610, 1605],
    [3473, 3512, 3530],
    [2958, 2990, 3021],
    [3086, 3074],
    [1575, 1740, 1605]
  ]),
  (110, [
    [2447, 2472],
    [2703, 2728],
    [2319, 2344],
    [3214, 3240, 3277, 8204],
    [3342, 3451],
    [2319, 2344],
    [2831, 2856],
    [2576, 2673, 2600],
    [1575, 1610, 1606],
    [3473, 3505, 3530],
    [2958, 2985, 3021],
    [3086, 3112, 3149, 8204],
    [1575, 1740, 1606]
  ]),
  (111, [
    [2451],
    [2707],
    [2323],
    [3218],
    [3346],
    [2323],
    [2835],
    [2579],
    [1575, 1608],
    [3477],
    [2963],
    [3090],
    [1575, 1608]
  ]),
  (112, [
    [2474, 2495],
    [2730, 2752],
    [2346, 2368],
    [3242, 3263],
    [3370, 3391],
    [2346, 2368],
    [2858, 2879],
    [2602, 2624],
    [1662, 1610],
    [3508, 3539],
    [2986, 3007],
    [3114, 3135],
    [1662, 1740]
  ]),
  (113, [
    [2453, 2495, 2441],
    [2709, 2765, 2735, 2753],
    [2325, 2381, 2351, 2370],
    [3221, 3277, 3247, 3266],
    [3349, 3405, 3375, 3393],
    [2325, 2381, 2351, 2370],
    [2837, 2879, 2825],
    [2581, 2623, 2570],
    [1705, 1610, 1608],
    [3482, 3538, 3514, 3540],
    [2965, 3007, 2991, 3010],
    [3093, 3149, 3119, 3137],
    [1705, 1740, 1608]
  ]),
  (114, [
    [2438, 2480],
    [2694, 2736],
    [2310, 2352],
    [3206, 3248, 3277, 8204],
    [3334, 3452],
    [2310, 2352],
    [2822, 2864],
    [2566, 2608],
    [1570, 1585],
    [3462, 3515, 3530],
    [2950, 2992, 3021],
    [3078, 3120, 3149, 8204],
    [1570, 1585]
  ]),
  (115, [
    [2447, 2488],
    [2703, 2744],
    [2319, 2360],
    [3214, 3256, 3277, 8204],
    [3342, 3384, 3405, 8204],
    [2319, 2360],
    [2831, 2872],
    [2576, 2673, 2616],
    [1575, 1610, 1587],
    [3473, 3523, 3530],
    [2958, 3000, 3021],
    [3086, 3128, 3149, 8204],
    [1575, 1740, 1587]
  ]),
  (116, [
    [2463, 2495],
    [2719, 2752],
    [2335, 2368],
    [3231, 3263],
    [3359, 3391],
    [2335, 2368],
    [2847, 2879],
    [2591, 2624],
    [1661, 1610],
    [3495, 3539],
    [2975, 3007],
    [3103, 3135],
    [1657, 1740]
  ]),
  (117, [
    [2439, 2441],
    [2735, 2753],
    [2351, 2370],
    [3247, 3265],
    [3375, 3393],
    [2351, 2370],
    [2823, 2825],
    [2607, 2626],
    [1610, 1608],
    [3514, 3542],
    [2991, 3010],
    [3119, 3137],
    [1740, 1608]
  ]),
  (118, [
    [2477, 2495],
    [2741, 2752],
    [2357, 2368],
    [3253, 3263],
    [3381, 3391],
    [2357, 2381, 2361, 2368],
    [2861, 2879],
    [2613, 2624],
    [1608, 1610],
    [3520, 3539],
    [2997, 3007],
    [3125, 3135],
    [1608, 1740]
  ]),
  (119, [
    [2465, 2494, 2476, 2482, 2495, 2441],
    [2721, 2732, 2765, 2738, 2765, 2735, 2753],
    [2337, 2348, 2381, 2354, 2381, 2351, 2370],
    [3233, 3244, 3277, 3250, 3266],
    [3361, 3372, 3405, 3378, 3405, 3375, 3393],
    [2337, 2348, 2381, 2354, 2381, 2351, 2370],
    [2849, 2860, 2893, 2866, 2881],
    [2593, 2673, 2604, 2610, 2623, 2570],
    [1674, 1576, 1604, 1610, 1608],
    [3497, 3510, 3530, 3517, 3538, 3520, 3530],
    [2975, 2986, 3007, 2995, 3021, 2991, 3010],
    [3105, 3116, 3149, 3122, 3149, 3119, 3137],
    [1672, 1576, 1604, 1740, 1608]
  ]),
  (120, [
    [2447, 2453, 2509, 2488],
    [2703, 2709, 2765, 2744],
    [2319, 2325, 2381, 2360],
    [3214, 3221, 3277, 3256, 3277, 8204],
    [3342, 3349, 3405, 3384, 3405, 8204],
    [2319, 2325, 2381, 2360],
    [2831, 2837, 2893, 2872],
    [2576, 2673, 2581, 2616],
    [1575, 1610, 1706, 1587],
    [3473, 3482, 3530, 3523, 3530],
    [2958, 2965, 3021, 3000, 3021],
    [3086, 3093, 3149, 3128, 3149, 8204],
    [1575, 1740, 1705, 1587]
  ]),
  (121, [
    [2451, 2479, 2492, 2494, 2439],
    [2741, 2750, 2735],
    [2357, 2366, 2312],
    [3253, 3272],
    [3381, 3400],
    [2357, 2366, 2351],
    [2929, 2878, 2823],
    [2613, 2622, 2568],
    [1608, 1575, 1574, 1610],
    [3520, 3514, 3538],
    [2962, 2991, 3021],
    [3125, 3144],
    [1608, 1575, 1574, 1746]
  ]),
  (122, [
    [2460, 2503, 2465],
    [2717, 2759, 2721],
    [2332, 2364, 2375, 2337],
    [3229, 3233, 3277, 8204],
    [3335, 3384, 3398, 3361, 3405, 8204],
    [2333, 2375, 2337],
    [2844, 2887, 2849],
    [2588, 2620, 2632, 2593],
    [1586, 1610, 1674],
    [3523, 3497, 3530],
    [2951, 2972, 2975, 3021],
    [3100, 3105, 3149, 8204],
    [1586, 1740, 1672]
  ])
]

end Nisaba.NT.Spellout
